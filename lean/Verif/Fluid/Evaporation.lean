import Verif.Math.Interp

/-!
# Evaporation of a pool

Model of `GunnsFluidEvaporation` (aspects/fluid/source/GunnsFluidEvaporation.cpp): a link between a liquid node, fed by an accumulator
that holds the pool, and a gas node; or two such links in two networks, one at the liquid and one at the gas, which send each other the
vapour potential and the rate.

Simplifications: doubles are elements of an ordered field.  The power of the pool's mass is any function.  The saturation pressure and
the heat of vaporisation at the gas node's temperature are inputs.  Commands to move ports, port directions, the volumetric flow and
the spring of the accumulator are left out.  The gas is a single type of positive molecular weight.
-/

namespace Gunns.Evap

open Gunns.Interp

variable {K : Type*} [Field K] [LinearOrder K] [IsStrictOrderedRing K]

/-- Configuration, GunnsFluidEvaporation.hh:58-60. -/
structure Config (K : Type*) where
  /-- `mEvaporationCoeff` -/
  coeff : K
  /-- `mPoolMassExponent` -/
  exponent : K
  /-- `mGasMWeight` -/
  gasWeight : K
  /-- `std::pow` -/
  power : K → K → K

/-- Input data, GunnsFluidEvaporation.hh:92-94. -/
structure Input (K : Type*) where
  pressure : K
  drop : K
  rate : K

/-- The checks of numbers in `validate`, GunnsFluidEvaporation.cpp:226-277. -/
def accepted (c : Config K) (d : Input K) : Prop :=
  -10 ≤ c.exponent ∧ c.exponent ≤ 10 ∧ 0 ≤ c.coeff ∧ 0 ≤ d.pressure ∧ 0 ≤ d.drop ∧ 0 ≤ d.rate

/-- A liquid node with the pool's accumulator. -/
structure Liquid (K : Type*) where
  /-- `mLiquidPoolAccum->getUsableMass()` -/
  pool : K
  /-- molecular weight of the node's content -/
  weight : K
  /-- molecular weight of what flows out of the node -/
  outWeight : K

/-- A gas node. -/
structure Gas (K : Type*) where
  /-- `mPotentialVector[1]` -/
  pressure : K
  /-- mole fraction of the vapour -/
  fraction : K
  /-- saturation pressure at the node's temperature -/
  saturation : K
  /-- heat of vaporisation at the node's temperature -/
  heat : K

/-- The link. -/
structure Link (K : Type*) where
  /-- `mGasTotalPressure` -/
  pressure : K
  /-- `mPotentialDrop` -/
  drop : K
  /-- `mFlowRate` -/
  rate : K
  /-- `mFlux` -/
  flux : K
  /-- `mPower` -/
  power : K
  /-- `mSourceVector` -/
  source0 : K
  source1 : K

/-- What a pass is given; `none` is the ground node. -/
structure Pass (K : Type*) where
  dt : K
  block : Option K
  liquid : Option (Liquid K)
  gas : Option (Gas K)

/-- `updateVaporPotential`, GunnsFluidEvaporation.cpp:323-335. -/
def updateVaporPotential (q : Pass K) (l : Link K) : Link K :=
  match q.gas with
  | none => l
  | some g => { l with drop := g.saturation - g.pressure * g.fraction }

/-- GunnsFluidEvaporation.cpp:359-363: the rate of the gas before the limit. -/
def wanted (c : Config K) (q : Pass K) (drop pool : K) : K :=
  let m := max drop 0 * c.coeff * c.power pool c.exponent
  match q.block with
  | none => m
  | some b => m * (1 - limitRange 0 b 1)

/-- The rest of `updateVaporRate`, GunnsFluidEvaporation.cpp:350-375. -/
def vaporRate (c : Config K) (q : Pass K) (p : Liquid K) (drop : K) : K :=
  if dblEps < c.gasWeight ∧ dblEps < p.weight ∧ dblEps < q.dt then
    if fltEps < p.pool then
      min (wanted c q drop p.pool * p.weight / c.gasWeight) (p.pool / q.dt) * c.gasWeight / p.weight
    else 0
  else 0

/-- `updateVaporRate`, GunnsFluidEvaporation.cpp:343-377. -/
def updateVaporRate (c : Config K) (q : Pass K) (l : Link K) : Link K :=
  match q.liquid with
  | none => l
  | some p => { l with rate := vaporRate c q p l.drop }

/-- `updatePower`, GunnsFluidEvaporation.cpp:384-391. -/
def updatePower (q : Pass K) (l : Link K) : Link K :=
  match q.gas with
  | none => l
  | some g => { l with power := g.heat * 1000 * l.rate }

/-- `step`, GunnsFluidEvaporation.cpp:301-315. -/
def step (c : Config K) (q : Pass K) (l : Link K) : Link K :=
  let l' := updatePower q (updateVaporRate c q (updateVaporPotential q l))
  let f := l'.rate / max c.gasWeight dblEps
  { l' with
    flux := f
    source0 := -f
    source1 := f }

/-- What the nodes get from `transportFlows`: mass of vapour into the gas node and of liquid out of the liquid node. -/
structure Moved (K : Type*) where
  vapour : K
  liquid : K

/-- `transportFlows`, GunnsFluidEvaporation.cpp:423-455; `m100EpsilonLimit` is a hundred `DBL_EPSILON`. -/
def transportFlows (q : Pass K) (l : Link K) : Link K × Moved K :=
  let l' : Link K := match q.gas with
    | none => l
    | some g => { l with pressure := g.pressure }
  if 100 * dblEps < l'.rate then
    (l', { vapour := if q.gas.isSome then l'.rate else 0
           liquid := match q.liquid with
             | none => 0
             | some p => l'.flux * p.outWeight })
  else (l', { vapour := 0, liquid := 0 })

/-- A pass. -/
def pass (c : Config K) (q : Pass K) (l : Link K) : Link K × Moved K := transportFlows q (step c q l)

/-- What else happens to a pool during a pass: the step and the blockage, the gas, the weight of the liquid and what flows in. -/
structure Around (K : Type*) where
  dt : K
  block : Option K
  gas : Gas K
  weight : K
  feed : K

/-- The pass of a link at both nodes for a pool of a given mass. -/
def Around.pass (a : Around K) (pool : K) : Pass K :=
  { dt := a.dt, block := a.block, liquid := some { pool := pool, weight := a.weight, outWeight := a.weight }, gas := some a.gas }

/-- The pool over several passes: each takes the liquid over its step and adds the feed. -/
def pools (c : Config K) : List (Around K) → K → Link K → K
  | [], m, _ => m
  | a :: as, m, l =>
    let r := Evap.pass c (a.pass m) l
    pools c as (m - r.2.liquid * a.dt + a.feed) r.1

/-- Two links in two networks: the state of the liquid's and of the gas's, and what has been moved over time. -/
structure Pair (K : Type*) where
  wet : Link K
  dry : Link K
  /-- mass that left the liquid -/
  gone : K
  /-- mass that came to the gas -/
  come : K

/-- One pass of both networks, with the values then sent both ways: the potential drop and the pressure to the liquid's link, the rate
to the gas's (the use the comments in GunnsFluidEvaporation.cpp:317-322 and 337-342 speak of). -/
def exchange (c : Config K) (dt : K) (block : Option K) (p : Liquid K) (g : Gas K) (s : Pair K) : Pair K :=
  let w := Evap.pass c { dt := dt, block := block, liquid := some p, gas := none } s.wet
  let d := Evap.pass c { dt := dt, block := none, liquid := none, gas := some g } s.dry
  { wet := { w.1 with
      drop := d.1.drop
      pressure := d.1.pressure }
    dry := { d.1 with rate := w.1.rate }
    gone := s.gone + w.2.liquid * dt
    come := s.come + d.2.vapour * dt }

end Gunns.Evap
