import Verif.Fluid.Node

/-!
# Trace compounds

Model of `GunnsFluidTraceCompounds` (aspects/fluid/fluid/GunnsFluidTraceCompounds.cpp) and of what `PolyFluid`,
`GunnsFluidUtils` and `GunnsFluidNode` do with it.  Trace compounds ride on a mixture: they have a mass and a mole
fraction relative to the moles of the mixture, and do not count in its mass.

Simplifications, besides those of `Verif.Fluid.Node`:
* the arrays over the compounds are functions of the index; a loop that changes each compound on its own is written
  as a function of the index, and entries from `mNTypes` on are not there in the code;
* all fluids of a network have the same compounds, as the network's configuration sees to;
* `mFluidMoles`, a reference to the moles of the mixture, is a parameter;
* a division by the molecular weight of the inflow when that is zero would give infinity or NaN: this takes an inflow
  of more than `DBL_EPSILON` kg made of flows that are all below `DBL_EPSILON` kg/s, and no theorem is about that.
-/

namespace Gunns.Fluid

variable {K : Type _} [Field K] [LinearOrder K] [IsStrictOrderedRing K]

/-- `GunnsFluidTraceCompoundsConfigData`: number of compounds and their molecular weights. -/
structure TcConfig (K : Type _) where
  /-- `mNTypes` -/
  n : Nat
  /-- `mCompounds[i]->mMWeight` -/
  mw : Nat → K

/-- `mMass` and `mMoleFraction` (GunnsFluidTraceCompounds.hh). -/
structure Tc (K : Type _) where
  mass : Nat → K
  frac : Nat → K

/-- `setMasses()` and `setMoleFractions()` without argument, as `PolyFluid::resetState` calls them
(PolyFluid.cpp:896-900, GunnsFluidTraceCompounds.cpp:519-528 and 578-587). -/
def Tc.zero : Tc K := ⟨fun _ => 0, fun _ => 0⟩

/-- `setMasses()` without argument (GunnsFluidTraceCompounds.cpp:519-528). -/
def Tc.clearMasses (t : Tc K) : Tc K := { t with mass := fun _ => 0 }

/-- What `PolyFluid::setState` copies (PolyFluid.cpp:950-953): the mole fractions only. -/
def Tc.setState (src t : Tc K) : Tc K := { t with frac := src.frac }

/-- `updateMasses` (GunnsFluidTraceCompounds.cpp:636-641). -/
def Tc.updateMasses (g : TcConfig K) (moles : K) (t : Tc K) : Tc K :=
  { t with mass := fun i => t.frac i * moles * g.mw i }

/-- `updateMoleFractions` (GunnsFluidTraceCompounds.cpp:647-663). -/
def Tc.updateMoleFractions (g : TcConfig K) (moles : K) (t : Tc K) : Tc K :=
  let f := if 0 < moles then fun i => t.mass i / moles / g.mw i else t.frac
  { mass := fun i => if f i < dblEps then 0 else t.mass i
    frac := fun i => if f i < dblEps then 0 else f i }

/-- `flowIn(source, totalMolesIn)` (GunnsFluidTraceCompounds.cpp:677-686). -/
def Tc.flowIn (g : TcConfig K) (moles : K) (src : Tc K) (molesIn : K) (t : Tc K) : Tc K :=
  Tc.updateMoleFractions g moles { t with mass := fun i => t.mass i + molesIn * src.frac i * g.mw i }

/-- `flowIn(rates, dt)` (GunnsFluidTraceCompounds.cpp:700-706). -/
def Tc.flowInRates (g : TcConfig K) (moles : K) (rates : Nat → K) (dt : K) (t : Tc K) : Tc K :=
  Tc.updateMoleFractions g moles { t with mass := fun i => max 0 (t.mass i + rates i * dt) }

/-- `flowOut(totalMolesOut)` (GunnsFluidTraceCompounds.cpp:717-725). -/
def Tc.flowOut (g : TcConfig K) (molesOut : K) (t : Tc K) : Tc K :=
  if dblEps < molesOut then { t with mass := fun i => t.mass i - molesOut * t.frac i * g.mw i } else t

/-- `limitPositive` (GunnsFluidTraceCompounds.cpp:730-736). -/
def Tc.limitPositive (g : TcConfig K) (moles : K) (t : Tc K) : Tc K :=
  Tc.updateMoleFractions g moles { t with mass := fun i => max 0 (t.mass i) }

/-- `moleFlowRate` in `PolyFluid::addState` (PolyFluid.cpp:1001-1011), of the mixture it is called on, after the
flow rates of the constituents are updated. -/
def moleFlow (q : Poly K) : K := innerLimit moleLimit (total q.n (fun i => (q.parts i).flowRate / q.mw i))

/-- The end of `PolyFluid::addState` (PolyFluid.cpp:1068-1075): `moles` is the flow of moles of the mixture. -/
def Tc.addState (g : TcConfig K) (moles : K) (src : Poly K) (srcTc : Tc K) (flow : K) (t : Tc K) : Tc K :=
  if dblEps < src.mweight then Tc.flowIn g moles srcTc (sourceFlow src flow / src.mweight) t else t

/-- A node with its trace compounds: those of `mContent`, `mInflow` and `mOutflow`, and `mTcInflow.mState`
(GunnsFluidNode.hh:155-178). -/
structure TNode (K : Type _) where
  fluid : FNode K
  content : Tc K
  inflow : Tc K
  outflow : Tc K
  rates : Nat → K

/-- `resetFlows` (GunnsFluidNode.cpp:384-397). -/
def TNode.resetFlows (s : TNode K) : Option (TNode K) :=
  match Fluid.resetFlows s.fluid with
  | .ok f => some { s with
      fluid := f
      inflow := Tc.zero
      outflow := Tc.setState s.content s.outflow
      rates := fun _ => 0 }
  | .thrown _ => none

/-- `collectInflux` (GunnsFluidNode.cpp:484-496): the exception of `addState` is caught. -/
def TNode.collectInflux (th : Thermo K) (g : TcConfig K) (rate : K) (src : Poly K) (srcTc : Tc K) (s : TNode K) :
    TNode K :=
  { s with
    fluid := Fluid.collectInflux th rate src s.fluid
    inflow := match Fluid.addState th.temp src rate s.fluid.inflow with
      | .ok q => Tc.addState g (moleFlow q) src srcTc rate s.inflow
      | .thrown _ => s.inflow }

/-- `collectTc` (GunnsFluidNode.cpp:510-524); `none` if it throws. -/
def TNode.collectTc (g : TcConfig K) (index : Int) (rate : K) (s : TNode K) : Option (TNode K) :=
  if 0 ≤ index ∧ index < (g.n : Int) then
    some { s with rates := fun i => if i = index.toNat then s.rates i + rate else s.rates i }
  else none

/-- The trace compounds of the contents' share of the outflow (GunnsFluidNode.cpp:560-565). -/
def traceStart (th : Thermo K) (g : TcConfig K) (a : Amounts K) (s : TNode K) : Tc K :=
  if 0 < a.outContent then
    match addState th.temp s.fluid.content a.outContent (resetState s.fluid.outflow) with
    | .ok q => Tc.addState g (moleFlow q) s.fluid.content s.content a.outContent Tc.zero
    | .thrown _ => Tc.zero
  else Tc.zero

/-- The trace compounds in a node with a volume (GunnsFluidNode.cpp:636-669, GunnsFluidUtils.cpp:1202-1206,
PolyFluid.cpp:1347-1351); `d` is the new mixture. -/
def traceVolume (g : TcConfig K) (a : Amounts K) (dt : K) (d : Poly K) (s : TNode K) : Tc K :=
  let f := s.fluid
  let inMass := f.influx * dt
  let oldMass := max 0 (f.content.mass - a.contentOutMass)
  let t1 :=
    if dblEps < |inMass| then
      let t0 := if dblEps < f.content.mweight then Tc.flowOut g (a.contentOutMass / f.content.mweight) s.content
        else s.content
      let mixed := if dblEps ≤ oldMass + inMass - a.inflowOutMass then inMass - a.inflowOutMass else dblEps
      Tc.flowIn g d.mole s.inflow (mixed / f.inflow.mweight) t0
    else Tc.updateMasses g d.mole s.content
  if dblEps < d.mweight then Tc.flowInRates g d.mole s.rates dt t1 else t1

/-- The trace compounds in a node without volume (GunnsFluidNode.cpp:720-740). -/
def traceNoVolume (s : TNode K) : Tc K :=
  if 0 < s.fluid.influx then Tc.clearMasses (Tc.setState s.inflow s.content) else s.content

/-- The trace compounds of the through flow (GunnsFluidNode.cpp:752-757); `r` is the node after the step, `t` its
trace compounds, `o` the outflow's. `addState` was the last to change the flow rates of `r.outflow`. -/
def traceFinish (g : TcConfig K) (a : Amounts K) (r : FNode K) (t o : Tc K) : Tc K :=
  if 0 < a.outThru then Tc.addState g (moleFlow r.outflow) r.content t a.outThru o
  else if a.outContent ≤ 0 then Tc.setState t o else o

/-- `integrateFlows` (GunnsFluidNode.cpp:535-763); `none` if it throws. -/
def TNode.integrateFlows (th : Thermo K) (g : TcConfig K) (dt : K) (s : TNode K) : Option (TNode K) :=
  let a := amounts dt s.fluid
  match Fluid.integrateFlows th dt s.fluid with
  | .thrown _ => none
  | .ok r =>
    let o := traceStart th g a s
    let mixed := if 0 < s.fluid.volume then
        (match mixContent a dt s.fluid with
          | .ok d => some (traceVolume g a dt d s)
          | .thrown _ => none)
      else some (traceNoVolume s)
    match mixed with
    | none => none
    | some t1 =>
      let t := Tc.limitPositive g r.content.mole t1
      some { s with
        fluid := r
        content := t
        outflow := traceFinish g a r t o }

end Gunns.Fluid
