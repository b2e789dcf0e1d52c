import Verif.Fluid.PolyFluid

/-!
# The crew's metabolism

Model of `GunnsFluidMetabolic`, `GunnsFluidMetabolic2` and `GunnsFluidMetabolic3`
(aspects/fluid/source/GunnsFluidMetabolic.cpp, GunnsFluidMetabolic2.cpp, GunnsFluidMetabolic3.cpp), and of the part of
`GunnsFluidSource` (core/GunnsFluidSource.cpp) the first two leave in place: links that take oxygen from a cabin and give it carbon
dioxide, water and heat, for crew members in several states of activity.

Simplifications: doubles are elements of an ordered field.  Port 0 is on the vacuum node and port 1 is not, as
`checkSpecificPortRules` asks, so `determineSourcePort` is port 1 whenever there is a flow.  Trace compounds are left out.  The ports,
the volumetric flow and the power do not enter what the cabin is given and are left out.
-/

namespace Gunns.Crew

open Gunns.Fluid

variable {K : Type*} [Field K] [LinearOrder K] [IsStrictOrderedRing K]

/-- Rates of one crew member in each state, GunnsFluidMetabolic.hh:153-156. -/
structure Rates (K : Type*) where
  /-- `mO2ConsumptionRate` -/
  o2 : Nat → K
  /-- `mCO2ProductionRate` -/
  co2 : Nat → K
  /-- `mH2OProductionRate` -/
  h2o : Nat → K
  /-- `mHeatProductionRate` -/
  heat : Nat → K

/-- `derive`, GunnsFluidMetabolic.cpp:334-364: the rates of the first link, from those of a crew member in the nominal state and the
scale factors of the states sleep, recovery and exercise. -/
def scaled (o2 co2 h2o heat sleep recovery exercise : K) : Rates K :=
  let by_ : K → Nat → K := fun x i => if i = 0 then x else if i = 1 then x * sleep else if i = 2 then x * recovery else x * exercise
  { o2 := by_ o2
    co2 := by_ co2
    h2o := by_ h2o
    heat := by_ heat }

/-- What the crew takes and gives, GunnsFluidMetabolic.hh:157-160. -/
structure Made (K : Type*) where
  /-- `mConsumedO2` -/
  o2 : K
  /-- `mProducedCO2` -/
  co2 : K
  /-- `mProducedH2O` -/
  h2o : K
  /-- `mProducedHeat` -/
  heat : K

/-- All zero. -/
def Made.zero : Made K := { o2 := 0, co2 := 0, h2o := 0, heat := 0 }

/-- The loop of `updateState`, GunnsFluidMetabolic.cpp:393-405; `avail` is the rate that would empty the cabin of oxygen in the step. -/
def made1 (n : Nat) (crew : Nat → K) (r : Rates K) (avail : K) : Made K :=
  loop (fun i s =>
    { o2 := s.o2 + min avail (crew i * r.o2 i)
      co2 := s.co2 + crew i * r.co2 i
      h2o := s.h2o + crew i * r.h2o i
      heat := s.heat + crew i * r.heat i }) n Made.zero

/-- The loop of GunnsFluidMetabolic2.cpp:659-667 and GunnsFluidMetabolic3.cpp:768-776. -/
def summed (n : Nat) (crew : Nat → K) (r : Rates K) : Made K :=
  loop (fun i s =>
    { o2 := s.o2 + crew i * r.o2 i
      co2 := s.co2 + crew i * r.co2 i
      h2o := s.h2o + crew i * r.h2o i
      heat := s.heat + crew i * r.heat i }) n Made.zero

/-- The biases of GunnsFluidMetabolic2.cpp:668-674. -/
def biased (b : Option (Made K)) (m : Made K) : Made K :=
  match b with
  | none => m
  | some b =>
    { o2 := m.o2 + b.o2
      co2 := m.co2 + b.co2
      h2o := m.h2o + b.h2o
      heat := m.heat + b.heat }

/-- GunnsFluidMetabolic2.cpp:659-677, and GunnsFluidMetabolic3.cpp:768-779 without a bias. -/
def made2 (n : Nat) (crew : Nat → K) (r : Rates K) (bias : Option (Made K)) (avail : K) : Made K :=
  let m := biased bias (summed n crew r)
  { m with o2 := min avail m.o2 }

/-- The number of the crew, GunnsFluidMetabolic2.cpp:662. -/
def headcount (n : Nat) (crew : Nat → K) : K := total n crew

/-- Where oxygen, carbon dioxide and water are in the network's fluid, and the other bulk constituents the crew makes
(ammonia, carbon monoxide, hydrogen and methane, as far as the network has them), with the rate of one crew member. -/
structure Ids (K : Type*) where
  o2 : Nat
  co2 : Nat
  h2o : Nat
  others : List (Nat × K)

/-- What `updateFluid` puts in the internal fluid, GunnsFluidMetabolic.cpp:438-440, GunnsFluidMetabolic2.cpp:733-747 and
GunnsFluidMetabolic3.cpp:907-921: constituents and rates. -/
def bulk (ids : Ids K) (heads : K) (m : Made K) : List (Nat × K) :=
  (ids.o2, -m.o2) :: (ids.co2, m.co2) :: (ids.h2o, m.h2o) :: ids.others.map (fun e => (e.1, heads * e.2))

/-- The flow asked for: GunnsFluidMetabolic.cpp:406, GunnsFluidMetabolic2.cpp:697-701, GunnsFluidMetabolic3.cpp:799-803. -/
def net (ids : Ids K) (heads : K) (m : Made K) : K :=
  ids.others.foldl (fun s e => s + heads * e.2) (m.h2o + m.co2 - m.o2)

/-- GunnsFluidMetabolic.cpp:408-414. -/
def demand1 (x : K) : K := if |x| ≤ dblEps then 0 else x

/-- GunnsFluidMetabolic2.cpp:703-709 and GunnsFluidMetabolic3.cpp:805-811. -/
def demand2 (x : K) : K := if x ≤ dblEps then 0 else x

/-- A link. -/
structure Link (K : Type*) where
  /-- `mNCrew` -/
  crew : Nat → K
  made : Made K
  /-- `mFlowDemand` -/
  demand : K
  /-- `mInternalFluid` -/
  fluid : Poly K

/-- What is the same in every pass. -/
structure Config (K : Type*) where
  /-- `NO_METABOLIC`: the number of states -/
  n : Nat
  rates : Rates K
  ids : Ids K
  bias : Option (Made K)

/-- What a pass is given: the step, the cabin's oxygen mass fraction, its mass, temperature and the molecular weight of what flows
out of it, and the blockage. -/
structure Pass (K : Type*) where
  dt : K
  x : K
  mass : K
  temperature : K
  outWeight : K
  block : Option K

/-- The oxygen in the cabin over the time step. -/
def Pass.avail (q : Pass K) : K := q.x * q.mass / q.dt

/-- `updateState`, GunnsFluidMetabolic.cpp:385-416. -/
def update1 (c : Config K) (q : Pass K) (l : Link K) : Link K :=
  if q.dt < dblEps then { l with demand := 0 }
  else
    { l with
      made := made1 c.n l.crew c.rates q.avail
      demand := demand1 (net c.ids (headcount c.n l.crew) (made1 c.n l.crew c.rates q.avail)) }

/-- `updateState`, GunnsFluidMetabolic2.cpp:651-711, and the first part of `step`, GunnsFluidMetabolic3.cpp:762-812. -/
def update2 (c : Config K) (q : Pass K) (l : Link K) : Link K :=
  if q.dt < dblEps then { l with demand := 0 }
  else
    { l with
      made := made2 c.n l.crew c.rates c.bias q.avail
      demand := demand2 (net c.ids (headcount c.n l.crew) (made2 c.n l.crew c.rates c.bias q.avail)) }

/-- `setMass` of each of a list of constituents, PolyFluid.cpp:809-818. -/
def fill (xs : List (Nat × K)) (p : Poly K) : Poly K :=
  xs.foldl (fun p e => (setPartMass (e.1 : Int) e.2 p).state) p

/-- `updateFluid`, GunnsFluidMetabolic.cpp:427-449, GunnsFluidMetabolic2.cpp:722-757, GunnsFluidMetabolic3.cpp:896-931: the internal
fluid and the heat given to the cabin. -/
def updateFluid (c : Config K) (q : Pass K) (l : Link K) : Link K × K :=
  if dblEps < l.demand then
    ({ l with
       fluid :=
         { updateMass (fill (bulk c.ids (headcount c.n l.crew) l.made) (resetState l.fluid)) with temperature := q.temperature } },
     l.made.heat)
  else (l, 0)

/-- The demand less the blockage, core/GunnsFluidSource.cpp:204-207 and GunnsFluidMetabolic3.cpp:815-820. -/
def blocked (q : Pass K) (demand : K) : K :=
  match q.block with
  | none => demand
  | some b => demand * (1 - b)

/-- What the cabin is given by a pass: `collectInflux` with a mass flow and a fluid (none if the flow is below the limit), and heat. -/
structure Given (K : Type*) where
  flow : K
  fluid : Poly K
  heat : K

/-- The mass rate of one constituent into the cabin: core/GunnsFluidNode.cpp:484-496 adds the fluid's mass fractions times the flow. -/
def Given.rate (g : Given K) (i : Nat) : K := g.flow * (g.fluid.parts i).massFraction

/-- `transportFluid(true)`, core/GunnsFluidLink.cpp:202-241: nothing below `m100EpsilonLimit`. -/
def passed (flow : K) : K := if 100 * dblEps < |flow| then flow else 0

/-- The rest of `GunnsFluidSource::step` and `transportFlows`, core/GunnsFluidSource.cpp:204-226 and 259-284. -/
def source (c : Config K) (q : Pass K) (l : Link K) : Link K × Given K :=
  let flux := if dblEps < l.fluid.mweight then blocked q l.demand / l.fluid.mweight else 0
  let u := updateFluid c q l
  (u.1, { flow := passed (flux * q.outWeight), fluid := u.1.fluid, heat := u.2 })

/-- A pass of the first link. -/
def pass1 (c : Config K) (q : Pass K) (l : Link K) : Link K × Given K := source c q (update1 c q l)

/-- A pass of the second link. -/
def pass2 (c : Config K) (q : Pass K) (l : Link K) : Link K × Given K := source c q (update2 c q l)

/-- A pass of the third link, GunnsFluidMetabolic3.cpp:754-885: `mFlowRate` is the demand itself. -/
def pass3 (c : Config K) (q : Pass K) (l : Link K) : Link K × Given K :=
  let l' := update2 c q l
  let u := updateFluid c q l'
  (u.1, { flow := passed (blocked q l'.demand), fluid := u.1.fluid, heat := u.2 })

/-- One entry of the array changed. -/
def put (i : Nat) (x : K) (crew : Nat → K) : Nat → K := fun j => if j = i then x else crew j

/-- `transition`, GunnsFluidMetabolic.cpp:466-486; `n` is `NO_METABOLIC`. -/
def transition1 (n : Nat) (number : K) (a b : Nat) (crew : Nat → K) : Nat → K :=
  if number < 0 then crew
  else
    let m := if a ≠ n then min number (crew a) else number
    let c1 := if a ≠ n then put a (max 0 (crew a - m)) crew else crew
    if b ≠ n then put b (max 0 (c1 b + m)) c1 else c1

/-- `transition`, GunnsFluidMetabolic2.cpp:799-817 and GunnsFluidMetabolic3.cpp:973-991. -/
def transition2 (n : Nat) (number : K) (a b : Nat) (crew : Nat → K) : Nat → K :=
  if number < 0 then crew
  else
    let m := if a ≠ n then min number (crew a) else number
    let c1 := if a ≠ n then put a (crew a - m) crew else crew
    if b ≠ n then put b (c1 b + m) c1 else c1

/-- A request to move crew members. -/
structure Move (K : Type*) where
  number : K
  source : Nat
  target : Nat

/-- Several transitions of the first link, one after the other. -/
def moves1 (n : Nat) (ms : List (Move K)) (crew : Nat → K) : Nat → K :=
  ms.foldl (fun c m => transition1 n m.number m.source m.target c) crew

/-- Several transitions of the other links. -/
def moves2 (n : Nat) (ms : List (Move K)) (crew : Nat → K) : Nat → K :=
  ms.foldl (fun c m => transition2 n m.number m.source m.target c) crew

end Gunns.Crew
