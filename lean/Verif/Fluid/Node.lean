import Verif.Fluid.PolyFluid

/-!
# Fluid nodes

Model of the flow collection and integration of `GunnsFluidNode` (core/GunnsFluidNode.cpp and .hh), with the
parts of `GunnsBasicNode` (core/GunnsBasicNode.hh) it inherits and of `GunnsFluidUtils`
(core/GunnsFluidUtils.cpp) it uses.

Simplifications, besides those of `Verif.Fluid.PolyFluid`:
* trace compounds are left out;
* `mExpansionDeltaT`, `mMassError`, `mPreviousTemperature` and the pressure correction are left out; the term that
  thermal expansion adds to the enthalpy enters through a function, `Thermo.expansion`;
* in `integrateFlows` a divisor that is zero would give infinity or NaN: `newMass` is never zero, `mInfluxRate` is
  positive where it divides.
-/

namespace Gunns.Fluid

variable {K : Type _} [Field K] [LinearOrder K] [IsStrictOrderedRing K]

/-- The fluid property functions a node uses. -/
structure Thermo (K : Type _) where
  /-- `PolyFluid::computeTemperature` (PolyFluid.cpp:1159-1183) of mass fractions and specific enthalpy. -/
  temp : (Nat → K) → K → K
  /-- `PolyFluid::computeSpecificEnthalpy` (PolyFluid.cpp:1197-1213) of mass fractions and temperature. -/
  enth : (Nat → K) → K → K
  /-- The specific heat that `PolyFluid::setTemperature` (PolyFluid.cpp:612-641) stores, of mass fractions, mole
  fractions and temperature. -/
  heat : (Nat → K) → (Nat → K) → K → K
  /-- `mExpansionDeltaT * mContent.getSpecificHeat()` (GunnsFluidNode.cpp:625-629 and 693), of the previous
  pressure and the contents. -/
  expansion : K → Poly K → K

/-- `PolyFluid::setTemperature` (PolyFluid.cpp:612-641). -/
def setTemperature (th : Thermo K) (t : K) (p : Poly K) : Poly K :=
  Poly.each { p with
      temperature := t
      enthalpy := th.heat (fun i => (p.parts i).massFraction) (fun i => (p.parts i).moleFraction) t * t }
    (fun _ c => { c with
      temperature := t
      pressure := p.pressure * c.moleFraction })

/-- `PolyFluid::setPressure` (PolyFluid.cpp:653-666). -/
def setPressure (x : K) (p : Poly K) : Poly K := { p with pressure := x }

/-- The mass fractions of a mixture. -/
def fractions (p : Poly K) : Nat → K := fun i => (p.parts i).massFraction

/-- `GunnsFluidUtils::normalizeArray` (GunnsFluidUtils.cpp:1140-1163): the array and the returned flag. -/
def normalizeArray (n : Nat) (f : Nat → K) : (Nat → K) × Bool :=
  let g := fun i => if f i < dblEps * dblEps then 0 else f i
  let s := total n g
  if fltEps < |s - 1| then
    if 0 < s then (fun i => g i / s, true) else (g, true)
  else (g, false)

/-- `GunnsFluidUtils::mixFluidMasses` (GunnsFluidUtils.cpp:1182-1209). -/
def mixFluidMasses (outMass : K) (inFluid : Poly K) (inMass : K) (out : Poly K) : Res (Poly K) :=
  let newMass := inMass + outMass
  if newMass < dblEps then .thrown out
  else
    let f := fun i => (inMass * fractions inFluid i + outMass * fractions out i) / newMass
    setMassAndMassFractions newMass (normalizeArray out.n f).1 out

/-- Attributes of `GunnsFluidNode` (GunnsFluidNode.hh:155-178) and `GunnsBasicNode`. -/
structure FNode (K : Type _) where
  content : Poly K
  inflow : Poly K
  outflow : Poly K
  /-- `mInfluxRate` (kg/s) -/
  influx : K
  /-- `mOutfluxRate` -/
  outflux : K
  /-- `mScheduledOutflux` (kg*mol/s) -/
  scheduled : K
  /-- `mInflowHeatFlux` -/
  heatFlux : K
  /-- `mUndampedHeatFlux` -/
  undamped : K
  volume : K
  /-- `mThermalDampingMass` -/
  dampingMass : K
  /-- `mThermalDampingHeat` -/
  dampingHeat : K
  previousPressure : K
  netHeat : K
  netFlux : K
  through : K

/-- `resetFlows` (GunnsFluidNode.cpp:384-397, GunnsBasicNode.hh:626-631). -/
def resetFlows (s : FNode K) : Res (FNode K) :=
  let s1 := { s with
    influx := 0
    outflux := 0
    scheduled := 0
    inflow := resetState s.inflow
    heatFlux := 0
    previousPressure := s.content.pressure }
  match setState s.content s.outflow with
  | .ok o => .ok { s1 with outflow := o }
  | .thrown o => .thrown { s1 with outflow := o }

/-- `collectInflux` (GunnsFluidNode.cpp:484-496): the exception of `addState` is caught. -/
def collectInflux (th : Thermo K) (rate : K) (fluid : Poly K) (s : FNode K) : FNode K :=
  { s with
    inflow := (addState th.temp fluid rate s.inflow).state
    heatFlux := s.heatFlux + rate * fluid.enthalpy
    influx := s.influx + rate }

/-- `collectHeatFlux` (GunnsFluidNode.hh:206-209). -/
def collectHeatFlux (q : K) (s : FNode K) : FNode K := { s with heatFlux := s.heatFlux + q }

/-- `scheduleOutflux` (GunnsBasicNode.hh:595-598). -/
def scheduleOutflux (flux : K) (s : FNode K) : FNode K := { s with scheduled := s.scheduled + flux }

/-- `collectOutflux` (GunnsBasicNode.hh:618-621). -/
def collectOutflux (rate : K) (s : FNode K) : FNode K := { s with outflux := s.outflux + rate }

/-- `isOverflowing` (GunnsFluidNode.hh:337-340). -/
def isOverflowing (dt : K) (s : FNode K) : Bool := decide (s.content.mole < s.scheduled * dt)

/-- The amounts `integrateFlows` computes first (GunnsFluidNode.cpp:546-588). -/
structure Amounts (K : Type _) where
  contentOutMass : K
  outContent : K
  inflowOutMass : K
  outThru : K

/-- GunnsFluidNode.cpp:546-588. -/
def amounts (dt : K) (s : FNode K) : Amounts K :=
  let scheduledOutMoles := s.scheduled * dt
  let contentOutMoles := min scheduledOutMoles s.content.mole
  let contentOutMass := contentOutMoles * s.content.mweight
  let inflowMW := s.inflow.mweight
  let inflowMoles := if dblEps < inflowMW then max s.influx 0 * dt / inflowMW else 0
  let inflowOutMoles := min inflowMoles (scheduledOutMoles - contentOutMoles)
  let inflowOutMass := inflowOutMoles * inflowMW
  { contentOutMass := contentOutMass
    outContent := if 0 < dt then contentOutMass / dt else 0
    inflowOutMass := inflowOutMass
    outThru := if 0 < dt then inflowOutMass / dt else 0 }

/-- The contents' share of the outflow (GunnsFluidNode.cpp:560-565). -/
def startOutflow (th : Thermo K) (a : Amounts K) (s : FNode K) : Res (Poly K) :=
  let o := resetState s.outflow
  if 0 < a.outContent then
    match addState th.temp s.content a.outContent o with
    | .ok o => .ok (setFlowRate a.outContent o)
    | .thrown o => .thrown o
  else .ok o

/-- The new mixture in a node with a volume (GunnsFluidNode.cpp:633-664). -/
def mixContent (a : Amounts K) (dt : K) (s : FNode K) : Res (Poly K) :=
  let inMass := s.influx * dt
  let oldMass := max 0 (s.content.mass - a.contentOutMass)
  let newMass := if oldMass + inMass - a.inflowOutMass < dblEps then dblEps else oldMass + inMass - a.inflowOutMass
  if dblEps < |inMass| then
    if dblEps ≤ oldMass + inMass - a.inflowOutMass then
      mixFluidMasses oldMass s.inflow (inMass - a.inflowOutMass) s.content
    else mixFluidMasses 0 s.inflow dblEps s.content
  else .ok (setMass newMass s.content)

/-- The specific enthalpy before damping and expansion (GunnsFluidNode.cpp:608-623). -/
def mixEnthalpy (a : Amounts K) (dt : K) (s : FNode K) : K :=
  let inMass := s.influx * dt
  let oldMass := max 0 (s.content.mass - a.contentOutMass)
  let newMass := oldMass + inMass - a.inflowOutMass
  let h := s.content.mass * s.content.enthalpy + s.netHeat * dt
  if newMass < dblEps then s.content.enthalpy
  else if h < dblEps then s.content.enthalpy
  else h / newMass

/-- The new contents of a node with a volume (GunnsFluidNode.cpp:594-699). -/
def integrateVolume (th : Thermo K) (a : Amounts K) (dt : K) (s : FNode K) : Res (FNode K) :=
  let inMass := s.influx * dt
  let oldMass := max 0 (s.content.mass - a.contentOutMass)
  let newMass := if oldMass + inMass - a.inflowOutMass < dblEps then dblEps else oldMass + inMass - a.inflowOutMass
  let h := mixEnthalpy a dt s
  let expansion := th.expansion s.previousPressure s.content
  match mixContent a dt s with
  | .thrown c => .thrown { s with content := c }
  | .ok c =>
    let mixture := th.enth (fractions c) c.temperature + s.undamped * dt / newMass
    let damped := (h - mixture) * newMass / (newMass + s.dampingMass)
    let h1 := if 0 < s.dampingMass then mixture + damped else h
    let q := if 0 < s.dampingMass ∧ dblEps < dt then (h - mixture - damped) * newMass / dt else 0
    let h2 := h1 + oldMass * expansion / newMass
    .ok { s with
      content := setTemperature th (th.temp (fractions c) h2) c
      dampingHeat := q }

/-- The new contents of a node without volume (GunnsFluidNode.cpp:711-736). -/
def integrateNoVolume (th : Thermo K) (s : FNode K) : Res (FNode K) :=
  if 0 < s.influx then
    let i1 := setPressure s.content.pressure s.inflow
    let i2 := setTemperature th (th.temp (fractions i1) (s.heatFlux / s.influx)) i1
    let norm := normalizeArray i2.n (fractions i2)
    match (if norm.2 then setMassAndMassFractions 0 norm.1 i2 else .ok i2) with
    | .thrown i3 => .thrown { s with inflow := i3 }
    | .ok i3 =>
      match setState i3 s.content with
      | .thrown c => .thrown { s with inflow := i3, content := c }
      | .ok c => .ok { s with inflow := i3, content := c }
  else .ok s

/-- The through flow's share of the outflow (GunnsFluidNode.cpp:752-757). -/
def finishOutflow (th : Thermo K) (a : Amounts K) (s : FNode K) : Res (Poly K) :=
  match (if 0 < a.outThru then addState th.temp s.content a.outThru s.outflow
         else if a.outContent ≤ 0 then setState s.content s.outflow else .ok s.outflow) with
  | .ok o => .ok (setPressure s.content.pressure o)
  | .thrown o => .thrown o

/-- `integrateFlows` (GunnsFluidNode.cpp:535-763). -/
def integrateFlows (th : Thermo K) (dt : K) (s : FNode K) : Res (FNode K) :=
  let a := amounts dt s
  match startOutflow th a s with
  | .thrown o => .thrown { s with
      dampingHeat := 0
      outflow := o }
  | .ok o =>
    let s1 := { s with
      dampingHeat := 0
      outflow := o
      netHeat := s.heatFlux - (a.outContent * s.content.enthalpy + a.outThru * s.inflow.enthalpy) }
    match (if 0 < s.volume then integrateVolume th a dt s1 else integrateNoVolume th s1) with
    | .thrown s2 => .thrown s2
    | .ok s2 =>
      match finishOutflow th a s2 with
      | .thrown o => .thrown { s2 with outflow := o }
      | .ok o => .ok { s2 with
          outflow := o
          netFlux := s2.influx - (a.outContent + a.outThru)
          through := min s2.influx (a.outContent + a.outThru) }

end Gunns.Fluid
