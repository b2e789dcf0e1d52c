import Verif.Base.Loop
import Verif.Base.Const

/-!
# Fluid mixtures

Model of the mixture bookkeeping of `PolyFluid` (aspects/fluid/fluid/PolyFluid.cpp and .hh) and `MonoFluid`
(aspects/fluid/fluid/MonoFluid.cpp and .hh).

Simplifications:
* the fluid properties other than the molecular weight (density, viscosity, specific heat, thermal
  conductivity, Prandtl number, adiabatic index) are left out; they are computed from what is modelled and
  nothing modelled here depends on them;
* `computeTemperature` (PolyFluid.cpp:1159-1183), which depends on the mass fractions and an enthalpy only, is
  a parameter `temp` of `addState`;
* trace compounds are left out;
* numbers are elements of an ordered field.

An exception is the outcome `.thrown` with the state the object is left in.
-/

namespace Gunns.Fluid

variable {K : Type _} [Field K] [LinearOrder K] [IsStrictOrderedRing K]

/-- `PolyFluid::Constituent` (PolyFluid.hh:119-131) with the attributes of its `MonoFluid`
(MonoFluid.hh:146-155). -/
structure Part (K : Type _) where
  massFraction : K
  moleFraction : K
  temperature : K
  pressure : K
  flowRate : K
  mass : K
  mole : K

/-- Attributes of `PolyFluid` (PolyFluid.hh:269-289); `mw i` is the molecular weight of constituent `i`. -/
structure Poly (K : Type _) where
  n : Nat
  types : Nat → Nat
  mw : Nat → K
  parts : Nat → Part K
  temperature : K
  pressure : K
  flowRate : K
  mass : K
  mole : K
  mweight : K
  enthalpy : K

/-- A call that returns, or throws and leaves the object in a state. -/
inductive Res (α : Type _)
  | ok (a : α)
  | thrown (a : α)

/-- The state after the call. -/
def Res.state {α : Type _} : Res α → α
  | .ok a => a
  | .thrown a => a

/-- `FRACTION_TOLERANCE` (PolyFluid.cpp:149). -/
def fractionTolerance : K := 1 / 10000

/-- `MOLE_INNER_LIMIT` (PolyFluid.cpp:154). -/
def moleLimit : K := dblEps * dblEps

/-- `MonoFluid::mMinFlowRate` (MonoFluid.cpp:39). -/
def minFlowRate : K := dblEps * dblEps

/-- `double s = 0.0; for (i = 0; i < n; ++i) s += f[i];` -/
def total (n : Nat) (f : Nat → K) : K := loop (fun i s => s + f i) n 0

/-- A loop over the constituents that changes each on its own. -/
def Poly.each (p : Poly K) (g : Nat → Part K → Part K) : Poly K :=
  { p with parts := fun i => if i < p.n then g i (p.parts i) else p.parts i }

/-- `MonoFluid::setMass` (MonoFluid.hh:388-392). -/
def Part.setMass (w m : K) (c : Part K) : Part K :=
  { c with
    mass := m
    mole := m / w }

/-- `MonoFluid::setMole` (MonoFluid.hh:401-405). -/
def Part.setMole (w x : K) (c : Part K) : Part K :=
  { c with
    mole := x
    mass := x * w }

/-- `PolyFluid::setFlowRate` (PolyFluid.hh:580-589). -/
def setFlowRate (flow : K) (p : Poly K) : Poly K :=
  Poly.each { p with flowRate := flow } (fun _ c => { c with flowRate := c.massFraction * flow })

/-- `PolyFluid::setMass(mass)` (PolyFluid.cpp:1333-1352). -/
def setMass (mass : K) (p : Poly K) : Poly K :=
  let w := innerLimit dblEps p.mweight
  Poly.each { p with
      mweight := w
      mass := mass
      mole := mass / w }
    (fun i c => c.setMass (p.mw i) (c.massFraction * mass))

/-- `PolyFluid::setMole(mole)` (PolyFluid.hh:598-609). -/
def setMole (mole : K) (p : Poly K) : Poly K :=
  Poly.each { p with
      mole := mole
      mass := mole * p.mweight }
    (fun i c => c.setMole (p.mw i) (c.moleFraction * mole))

/-- The check and normalisation at the start of `setMassAndMassFractions` (PolyFluid.cpp:691-706) and
`setMoleAndMoleFractions` (PolyFluid.cpp:755-770): `none` if it throws. -/
def normalise (n : Nat) (f : Nat → K) : Option (Nat → K) :=
  let one := total n f
  let error := |1 - one|
  if fractionTolerance < error then none
  else if fltEps < error then some (fun i => f i / one)
  else some f

/-- `setMassAndMassFractions` (PolyFluid.cpp:688-730). -/
def setMassAndMassFractions (mass : K) (f : Nat → K) (p : Poly K) : Res (Poly K) :=
  match normalise p.n f with
  | none => .thrown p
  | some f =>
    let q := Poly.each { p with mass := mass } (fun i c => { c with
      massFraction := f i
      moleFraction := f i / p.mw i })
    let m := innerLimit dblEps (total p.n (fun i => f i / p.mw i))
    let w := 1 / m
    let mole := mass / w
    .ok (Poly.each { q with
        mweight := w
        mole := mole }
      (fun i c => { Part.setMole (p.mw i) (c.moleFraction / m * mole) c with
        moleFraction := c.moleFraction / m
        flowRate := c.massFraction * p.flowRate }))

/-- `setMoleAndMoleFractions` (PolyFluid.cpp:752-795). -/
def setMoleAndMoleFractions (mole : K) (f : Nat → K) (p : Poly K) : Res (Poly K) :=
  match normalise p.n f with
  | none => .thrown p
  | some f =>
    let q := Poly.each { p with mole := mole } (fun i c => { c with
      moleFraction := f i
      massFraction := f i * p.mw i })
    let w := innerLimit dblEps (total p.n (fun i => f i * p.mw i))
    let mass := mole * w
    .ok (Poly.each { q with
        mweight := w
        mass := mass }
      (fun i c => { Part.setMass (p.mw i) (c.massFraction / w * mass) c with
        massFraction := c.massFraction / w
        flowRate := c.massFraction / w * p.flowRate }))

/-- `setMass(index, mass)` (PolyFluid.cpp:809-818). -/
def setPartMass (index : Int) (mass : K) (p : Poly K) : Res (Poly K) :=
  if index < 0 ∨ (p.n : Int) ≤ index then .thrown p
  else .ok { p with parts := fun i =>
    if i = index.toNat then (p.parts i).setMass (p.mw i) mass else p.parts i }

/-- `updateMass` (PolyFluid.cpp:828-861). -/
def updateMass (p : Poly K) : Poly K :=
  let mass := innerLimit dblEps (total p.n (fun i => (p.parts i).mass))
  let moles := innerLimit dblEps (total p.n (fun i => (p.parts i).mass / p.mw i))
  Poly.each { p with
      mass := mass
      mole := moles
      mweight := mass / moles }
    (fun i c => { c with
      massFraction := c.mass / mass
      moleFraction := c.mass / p.mw i / moles })

/-- `resetState` (PolyFluid.cpp:870-901, MonoFluid.hh:412-419). -/
def resetState (p : Poly K) : Poly K :=
  Poly.each { p with
      temperature := 0
      pressure := 0
      flowRate := 0
      mass := 0
      mole := 0
      mweight := 0
      enthalpy := 0 }
    (fun _ _ => { massFraction := 0, moleFraction := 0, temperature := 0, pressure := 0, flowRate := 0, mass := 0,
                  mole := 0 })

/-- Do the constituents of two mixtures match (PolyFluid.cpp:916-926 and 972-982)? -/
def sameTypes (p src : Poly K) : Bool :=
  p.n == src.n && (List.range p.n).all (fun i => p.types i == src.types i)

/-- `setState` (PolyFluid.cpp:913-954, MonoFluid.hh:429-435); mass and moles are not copied. -/
def setState (src p : Poly K) : Res (Poly K) :=
  if !sameTypes p src then .thrown p
  else .ok (Poly.each { p with
      temperature := src.temperature
      pressure := src.pressure
      flowRate := src.flowRate
      mweight := src.mweight
      enthalpy := src.enthalpy }
    (fun i c => { c with
      massFraction := (src.parts i).massFraction
      moleFraction := (src.parts i).moleFraction
      temperature := (src.parts i).temperature
      pressure := (src.parts i).pressure
      flowRate := (src.parts i).flowRate }))

/-- `MonoFluid::addState` (MonoFluid.cpp:232-260). -/
def Part.addState (src : Part K) (flow : K) (c : Part K) : Part K :=
  let srcFlow := if |flow| < minFlowRate then src.flowRate else flow
  let new := c.flowRate + srcFlow
  if minFlowRate < |new| then
    { c with
      temperature := |c.temperature * (c.flowRate / new) + src.temperature * (srcFlow / new)|
      pressure := |c.pressure * (c.flowRate / new) + src.pressure * (srcFlow / new)|
      flowRate := new }
  else
    { c with
      temperature := 1 / 2 * (c.temperature + src.temperature)
      pressure := 1 / 2 * (c.pressure + src.pressure)
      flowRate := new }

/-- The flow rate `addState` uses (PolyFluid.cpp:986-992). -/
def sourceFlow (src : Poly K) (flow : K) : K := if |flow| < dblEps then src.flowRate else flow

/-- `addState` (PolyFluid.cpp:969-1076); `temp fractions h` is `computeTemperature(h)` of a mixture with these
mass fractions. -/
def addState (temp : (Nat → K) → K → K) (src : Poly K) (flow : K) (p : Poly K) : Res (Poly K) :=
  if !sameTypes p src then .thrown p
  else
    let srcFlow := sourceFlow src flow
    let f := p.flowRate + srcFlow
    if |f| < dblEps then .thrown { p with flowRate := f }
    else
      let q := Poly.each { p with flowRate := f }
        (fun i c => Part.addState (src.parts i) (srcFlow * (src.parts i).massFraction) c)
      let moleFlow := innerLimit moleLimit (total p.n (fun i => (q.parts i).flowRate / p.mw i))
      let x := fun i => (q.parts i).flowRate / f
      let perMass := innerLimit moleLimit (total p.n (fun i => x i / p.mw i))
      let h := src.enthalpy * srcFlow / f + p.enthalpy * p.flowRate / f
      let t := temp x h
      .ok (Poly.each { q with
          pressure := total p.n (fun i => (q.parts i).pressure * (x i / p.mw i / perMass))
          enthalpy := h
          temperature := t
          mweight := f / moleFlow }
        (fun i c => { c with
          massFraction := x i
          moleFraction := x i / p.mw i / perMass
          temperature := t }))

/-- The data a mixture is initialised from (PolyFluidInputData). -/
structure Input (K : Type _) where
  temperature : K
  pressure : K
  flowRate : K
  mass : K
  fractions : Nat → K

/-- `initialize` with `validate` and `derive` (PolyFluid.cpp:345-436, 469-507, 514-559), for valid configuration
data and constituents of one phase; `MonoFluid::initialize` (MonoFluid.cpp:160-215) refuses a temperature or
pressure below `FLT_EPSILON`. `none` if it throws. The specific enthalpy is left out. -/
def initialise (n : Nat) (types : Nat → Nat) (mw : Nat → K) (d : Input K) : Option (Poly K) :=
  if n < 1 ∨ d.temperature < fltEps ∨ d.pressure < fltEps then none
  else
    match normalise n d.fractions with
    | none => none
    | some f =>
      let perMass := innerLimit dblEps (total n (fun i => d.fractions i / mw i))
      some
        { n := n, types := types, mw := mw, temperature := d.temperature, pressure := d.pressure,
          flowRate := d.flowRate, mass := d.mass, mole := d.mass / (1 / perMass), mweight := 1 / perMass,
          enthalpy := 0,
          parts := fun i =>
            { massFraction := f i
              moleFraction := d.fractions i / mw i / perMass
              temperature := d.temperature
              pressure := d.fractions i / mw i / perMass * d.pressure
              flowRate := f i * d.flowRate
              mass := f i * d.mass
              mole := f i * d.mass / mw i } }

end Gunns.Fluid
