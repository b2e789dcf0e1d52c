import Verif.Fluid.Network
import Verif.Fluid.NodeSpec

/-!
# Chemical reactors

Model of `GunnsFluidReactor` (aspects/fluid/source/GunnsFluidReactor.cpp and .hh), of the efficiency of
`GunnsFluidHotReactor` (aspects/fluid/source/GunnsFluidHotReactor.cpp), and of the tables of compounds and reactions
(ms-utils/properties/ChemicalCompound.cpp and ChemicalReaction.cpp).

Simplifications, besides those of `Verif.Fluid.PolyFluid` and `Verif.Fluid.Node`:
* the convective heat exchange with the wall and the temperatures of the fluids are left out; of `addRxnHeat` the
  specific enthalpy that the temperature is computed from is modelled;
* the checks of `validate` for null pointers, for counts and for types outside the tables are left out: reactions and
  compounds are given as lists of members of the tables;
* a mole ratio or a molecular weight of zero would divide by zero in `react`; the tables have none.
-/

namespace Gunns.Fluid

variable {K : Type _} [Field K] [LinearOrder K] [IsStrictOrderedRing K]

/-- `ChemicalCompound::Type` (ChemicalCompound.hh:54-87). -/
inductive Chem
  | CH2O | CH2CL2 | CH4 | CH4O | C2H4O | C2H6O | C3H6O | C3H10OSI | C4H4O | C4H10O | C6H6 | C6H18O3SI3 | C7H8
  | C8H10 | CO | CO2 | H2 | H2O | H3PO4 | H | LIOH | LIOHH2O | LI2CO3 | NH3 | NH42HPO4 | O2 | OH | O | He | Ar
  deriving DecidableEq, Repr

/-- The molecular weights (ChemicalCompound.cpp:103-132). -/
def Chem.weight : Chem → K
  | .CH2O => 300260 / 10000
  | .CH2CL2 => 849330 / 10000
  | .CH4 => 160425 / 10000
  | .CH4O => 320419 / 10000
  | .C2H4O => 440526 / 10000
  | .C2H6O => 460684 / 10000
  | .C3H6O => 580791 / 10000
  | .C3H10OSI => 901964 / 10000
  | .C4H4O => 680740 / 10000
  | .C4H10O => 741216 / 10000
  | .C6H6 => 781118 / 10000
  | .C6H18O3SI3 => 2224618 / 10000
  | .C7H8 => 921384 / 10000
  | .C8H10 => 1061650 / 10000
  | .CO => 280101 / 10000
  | .CO2 => 440095 / 10000
  | .H2 => 201588 / 100000
  | .H2O => 180153 / 10000
  | .H3PO4 => 979952 / 10000
  | .H => 100794 / 100000
  | .LIOH => 2394834 / 100000
  | .LIOHH2O => 4196364 / 100000
  | .LI2CO3 => 738909 / 10000
  | .NH3 => 170305 / 10000
  | .NH42HPO4 => 1320562 / 10000
  | .O2 => 319988 / 10000
  | .OH => 170073 / 10000
  | .O => 159994 / 10000
  | .He => 400260 / 100000
  | .Ar => 39948 / 1000

/-- Has the compound a fluid type (ChemicalCompound.cpp:103-132)? No two compounds have the same. -/
def Chem.isFluid : Chem → Bool
  | .CH4 | .CO | .CO2 | .H2 | .H2O | .NH3 | .O2 => true
  | _ => false

/-- `ChemicalReaction` (ChemicalReaction.hh); no second product: `NO_COMPOUND`. -/
structure ReactionDef (K : Type _) where
  nReactant : K
  reactant : Chem
  nReagent : K
  reagent : Chem
  nProduct1 : K
  product1 : Chem
  nProduct2 : K
  product2 : Option Chem
  /-- `mReactantEfficiency` -/
  efficiency : K
  /-- `mReactionHeat` (kJ/mol) -/
  heat : K

/-- `DefinedChemicalReactions` (ChemicalReaction.cpp:90-120). -/
def definedReactions : List (ReactionDef K) :=
  [⟨2, .CO, 1, .O2, 2, .CO2, 0, none, 80 / 100, 0⟩,
   ⟨1, .CH4, 2, .O2, 1, .CO2, 2, some .H2O, 64 / 100, 0⟩,
   ⟨2, .H2, 1, .O2, 2, .H2O, 0, none, 1, 0⟩,
   ⟨1, .H2O, 1, .LIOH, 1, .LIOHH2O, 0, none, 1 / 2, 60668 / 1000⟩,
   ⟨1, .CO2, 2, .LIOHH2O, 1, .LI2CO3, 3, some .H2O, 1, -(159 / 10)⟩,
   ⟨2, .NH3, 1, .H3PO4, 1, .NH42HPO4, 0, none, 90 / 100, 0⟩,
   ⟨1, .CO2, 4, .H2, 2, .H2O, 1, some .CH4, 90 / 100, 165⟩]

/-- `CompoundState` (GunnsFluidReactor.hh): the place of the fluid in the network, or none (-1). -/
structure Compound (K : Type _) where
  index : Option Nat
  weight : K
  /-- `mTotalMass` -/
  total : K
  /-- `mMass` -/
  mass : K

/-- `ReactionState` (GunnsFluidReactor.hh) with the data of its reaction. -/
structure Reaction (K : Type _) where
  reactant : Nat
  reagent : Nat
  product1 : Nat
  product2 : Option Nat
  nReactant : K
  nReagent : K
  nProduct1 : K
  nProduct2 : K
  efficiency : K
  heat : K
  /-- `ReactionState::mReactantEfficiency` -/
  userReactant : K
  /-- `ReactionState::mReagentEfficiency` -/
  userReagent : K

/-- The index that `derive` gives to a compound of a reaction (GunnsFluidReactor.cpp:449-463): the last of the
configured compounds of the type. -/
def lastIndex (types : List Chem) (t : Chem) : Option Nat :=
  loop (fun j r => if types[j]? = some t then some j else r) types.length none

/-- `PolyFluid::find` (PolyFluid.cpp:1278-1292) in the list of fluids of the network, of which some are no
compounds. `none`: it throws. -/
def findFluid (net : List (Option Chem)) (t : Chem) : Option Nat :=
  net.findIdx? (fun f => f == some t)

/-- `checkCompound` (GunnsFluidReactor.cpp:383-407): is the compound accepted? -/
def checkCompound (types : List Chem) (net : List (Option Chem)) (t : Chem) : Bool :=
  types.contains t && (!t.isFluid || (findFluid net t).isSome)

/-- The part of `validate` about a reaction (GunnsFluidReactor.cpp:343-354) and the part of `derive` about it
(GunnsFluidReactor.cpp:445-477). `none`: an exception. -/
def deriveReaction (types : List Chem) (net : List (Option Chem)) (userReactant userReagent : K) (d : ReactionDef K) :
    Option (Reaction K) :=
  if checkCompound types net d.reactant && checkCompound types net d.reagent && checkCompound types net d.product1 &&
      d.product2.all (checkCompound types net) then
    match lastIndex types d.reactant, lastIndex types d.reagent, lastIndex types d.product1 with
    | some a, some b, some c => some
      { reactant := a, reagent := b, product1 := c, product2 := d.product2.bind (lastIndex types),
        nReactant := d.nReactant, nReagent := d.nReagent, nProduct1 := d.nProduct1, nProduct2 := d.nProduct2,
        efficiency := d.efficiency, heat := d.heat, userReactant := userReactant, userReagent := userReagent }
    | _, _, _ => none
  else none

/-- The part of `derive` about a compound (GunnsFluidReactor.cpp:428-439). `none`: `find` throws. -/
def deriveCompound (net : List (Option Chem)) (total : K) (t : Chem) : Option (Compound K) :=
  if t.isFluid then
    match findFluid net t with
    | some i => some ⟨some i, t.weight, total, 0⟩
    | none => none
  else some ⟨none, t.weight, total, 0⟩

/-- Attributes of `GunnsFluidReactor` (GunnsFluidReactor.hh). -/
structure Reactor (K : Type _) where
  /-- `mNCompounds` -/
  n : Nat
  comp : Nat → Compound K
  reactions : List (Reaction K)
  products : Poly K
  reactants : Poly K
  productsFlow : K
  reactantsFlow : K
  /-- `mProducedHeat` -/
  heat : K
  /-- `mSourceVector` -/
  source0 : K
  source1 : K

/-- `inputFromAtmosphere` (GunnsFluidReactor.cpp:516-528); `x` are the mass fractions of the internal fluid. -/
def inputFromAtmosphere (dt flow : K) (x : Nat → K) (s : Reactor K) : Reactor K :=
  { s with comp := fun k =>
      if k < s.n then
        match (s.comp k).index with
        | some i => { s.comp k with
            total := x i * |flow| * dt
            mass := 0 }
        | none => { s.comp k with mass := 0 }
      else s.comp k }

/-- `computeEfficiency` (GunnsFluidReactor.cpp:726-742). -/
def computeEfficiency (r : Reaction K) (c : Nat → Compound K) : K :=
  let e := if dblEps < r.userReactant then r.userReactant else r.efficiency
  if dblEps < r.userReagent then e * (r.userReagent * (c r.reagent).total) else e

/-- `GunnsFluidHotReactor::computeEfficiency` (GunnsFluidHotReactor.cpp:195-206), of the fluid's temperature. -/
def hotEfficiency (bias scale temperature : K) (r : Reaction K) (c : Nat → Compound K) : K :=
  let e := max 0 (min (bias + scale * temperature) 1)
  if dblEps < r.userReagent then e * (r.userReagent * (c r.reagent).total) else e

/-- `mMass += m; mTotalMass += m;` of compound `k`. -/
def addMass (k : Nat) (m : K) (c : Nat → Compound K) : Nat → Compound K :=
  fun j => if j = k then { c j with
    mass := (c j).mass + m
    total := (c j).total + m } else c j

/-- `if (mTotalMass < DBL_EPSILON) mTotalMass = 0.0;` of compound `k`. -/
def zeroTiny (k : Nat) (c : Nat → Compound K) : Nat → Compound K :=
  fun j => if j = k ∧ (c j).total < dblEps then { c j with total := 0 } else c j

/-- `reagentMass` of `react` (GunnsFluidReactor.cpp:554-569). -/
def reagentMass (eff : Reaction K → (Nat → Compound K) → K) (r : Reaction K) (c : Nat → Compound K) : K :=
  let maxReactant := (c r.reactant).total * min (9999 / 10000) (eff r c)
  min ((c r.reagent).total * (9999 / 10000))
    (maxReactant * (r.nReagent * (c r.reagent).weight) / (r.nReactant * (c r.reactant).weight))

/-- The body of the loop of `react` (GunnsFluidReactor.cpp:541-609) for one reaction, without the heat. -/
def reactOnce (eff : Reaction K → (Nat → Compound K) → K) (c : Nat → Compound K) (r : Reaction K) : Nat → Compound K :=
  let m := reagentMass eff r c
  let wg := r.nReagent * (c r.reagent).weight
  let c1 := addMass r.reactant (-(m * (r.nReactant * (c r.reactant).weight) / wg)) c
  let c2 := addMass r.reagent (-m) c1
  let c3 := addMass r.product1 (m * (r.nProduct1 * (c r.product1).weight) / wg) c2
  let c4 := zeroTiny r.reagent (zeroTiny r.reactant c3)
  match r.product2 with
  | some p => addMass p (m * (r.nProduct2 * (c p).weight) / wg) c4
  | none => c4

/-- The heat a reaction adds (GunnsFluidReactor.cpp:594-598). -/
def reactHeat (eff : Reaction K → (Nat → Compound K) → K) (c : Nat → Compound K) (r : Reaction K) : K :=
  r.heat / r.nProduct1 * 1000000 *
    (reagentMass eff r c * (r.nProduct1 * (c r.product1).weight) / (r.nReagent * (c r.reagent).weight)) /
    (c r.product1).weight

/-- `react` (GunnsFluidReactor.cpp:537-610). -/
def react (eff : Reaction K → (Nat → Compound K) → K) (s : Reactor K) : Reactor K :=
  let out := s.reactions.foldl
    (fun (a : (Nat → Compound K) × K) r => (reactOnce eff a.1 r, a.2 + reactHeat eff a.1 r)) (s.comp, 0)
  { s with
    comp := out.1
    heat := out.2 }

/-- `setMass(index, mass)` of a fluid whose constituent it is (PolyFluid.cpp:809-818). -/
def putMass (i : Nat) (m : K) (p : Poly K) : Poly K := (setPartMass i m p).state

/-- `outputToAtmosphere` (GunnsFluidReactor.cpp:619-654). -/
def outputToAtmosphere (dt : K) (s : Reactor K) : Reactor K :=
  let negligible := (List.range s.n).all (fun k => (s.comp k).index.isNone || !decide (dblEps < |(s.comp k).mass|))
  if negligible then s
  else
    let t := loop (fun k (t : Reactor K) =>
      match (s.comp k).index with
      | some i =>
        if dblEps < (s.comp k).mass then { t with
            products := putMass i (s.comp k).mass t.products
            productsFlow := t.productsFlow + (s.comp k).mass }
        else if (s.comp k).mass < -dblEps then { t with
            reactants := putMass i (s.comp k).mass t.reactants
            reactantsFlow := t.reactantsFlow + (s.comp k).mass }
        else t
      | none => t) s.n s
    { t with
      productsFlow := t.productsFlow / dt
      reactantsFlow := t.reactantsFlow / dt
      products := updateMass t.products
      reactants := updateMass t.reactants }

/-- Does `updateFluid` let the reactions run (GunnsFluidReactor.cpp:499)? -/
def reacts (dt flow : K) : Prop := fltEps < |flow| ∧ dblEps < dt

instance (dt flow : K) : Decidable (reacts dt flow) := inferInstanceAs (Decidable (_ ∧ _))

/-- `updateFluid` (GunnsFluidReactor.cpp:490-507). -/
def updateFluid (eff : Reaction K → (Nat → Compound K) → K) (dt flow : K) (x : Nat → K) (s : Reactor K) : Reactor K :=
  let s0 := { s with
    reactantsFlow := 0
    productsFlow := 0
    reactants := resetState s.reactants
    products := resetState s.products }
  if reacts dt flow then outputToAtmosphere dt (react eff (inputFromAtmosphere dt flow x s0)) else s0

/-- The specific enthalpy that `addRxnHeat` (GunnsFluidReactor.cpp:711-715) computes the new temperature of the
internal fluid from; `h` is the one before. -/
def heatedEnthalpy (dt flow h : K) (s : Reactor K) : K := (flow * h + s.heat / dt) / flow

/-- The calls of nodes that `transportFluid` makes, and the source vector it leaves. -/
structure Delivery (K : Type _) where
  to0 : List (Collect K)
  to1 : List (Collect K)
  source0 : K
  source1 : K

/-- The flows to the node downstream (GunnsFluidReactor.cpp:769-785 and 792-808). -/
def deliver (internal : Poly K) (flow : K) (s : Reactor K) : List (Collect K) :=
  [.inflow internal flow] ++ (if limit100 < s.productsFlow then [.inflow s.products s.productsFlow] else []) ++
    (if s.reactantsFlow < -limit100 then [.inflow s.reactants s.reactantsFlow] else [])

/-- The source downstream (GunnsFluidReactor.cpp:776-785 and 799-808). -/
def deliverSource (s : Reactor K) : K :=
  (if limit100 < s.productsFlow then s.productsFlow / s.products.mweight else 0) +
    (if s.reactantsFlow < -limit100 then s.reactantsFlow / s.reactants.mweight else 0)

/-- `transportFluid` (GunnsFluidReactor.cpp:758-811) from port 0 to port 1. -/
def transportReactor (internal : Poly K) (flow : K) (s : Reactor K) : Delivery K :=
  if limit100 < flow then ⟨[.outflux flow], deliver internal flow s, 0, deliverSource s⟩
  else if flow < -limit100 then ⟨deliver internal (-flow) s, [.outflux (-flow)], deliverSource s, 0⟩
  else ⟨[], [], s.source0, s.source1⟩

end Gunns.Fluid
