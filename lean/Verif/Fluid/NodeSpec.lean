import Verif.Fluid.Node
import Verif.Fluid.PolyFluidSpec

/-!
# What a fluid node should do in a step

During a step links give a node flows of fluids and ask for fluxes out of it.  What is asked for is taken from
the contents first; if these do not suffice the rest is taken from what flows in.
-/

namespace Gunns.Fluid

open Finset

variable {K : Type _} [Field K] [LinearOrder K] [IsStrictOrderedRing K]

/-- What links do to a node between `resetFlows` and `integrateFlows`. -/
inductive Collect (K : Type _)
  | inflow (src : Poly K) (rate : K)
  | schedule (flux : K)
  | heat (q : K)
  | outflux (rate : K)

/-- The call. -/
def Collect.run (th : Thermo K) (s : FNode K) : Collect K → FNode K
  | .inflow src rate => collectInflux th rate src s
  | .schedule flux => scheduleOutflux flux s
  | .heat q => collectHeatFlux q s
  | .outflux rate => collectOutflux rate s

/-- The flows into the node, with their rates. -/
def inflows (ops : List (Collect K)) : List (Poly K × K) :=
  ops.filterMap (fun o => match o with | .inflow src rate => some (src, rate) | _ => none)

/-- The fluxes asked for. -/
def outs (ops : List (Collect K)) : List K :=
  ops.filterMap (fun o => match o with | .schedule f => some f | _ => none)

/-- The heat collected, with that of the flows. -/
def heats (ops : List (Collect K)) : K :=
  (ops.map (fun o => match o with | .inflow src rate => rate * src.enthalpy | .heat q => q | _ => 0)).sum

/-- A node that holds a proper mixture. -/
structure Ready (s : FNode K) : Prop where
  weights : GoodWeights s.content
  mixed : Mixed s.content
  content : ContentShared s.content
  flow : FlowShared s.content
  moles : ∑ i ∈ range s.content.n, (s.content.parts i).moleFraction = 1
  mass : 0 ≤ s.content.mass
  inflow : SameFluids s.content s.inflow
  outflow : SameFluids s.content s.outflow

/-- A step: its length, the flows in and the fluxes out. -/
structure Flows (K : Type _) where
  dt : K
  ins : List (Poly K × K)
  outs : List K

namespace Flows

/-- Mass flowing in. -/
def inMass (w : Flows K) : K := (w.ins.map (fun a => a.2)).sum * w.dt

/-- Mass of a constituent flowing in. -/
def inPart (w : Flows K) (i : Nat) : K := (w.ins.map (fun a => a.2 * (a.1.parts i).massFraction)).sum * w.dt

/-- Moles flowing in. -/
def inMoles (w : Flows K) (c : Poly K) : K := ∑ i ∈ range c.n, w.inPart i / c.mw i

/-- Moles asked for. -/
def outMoles (w : Flows K) : K := w.outs.sum * w.dt

/-- The part of the contents that is taken. -/
def contentShare (w : Flows K) (c : Poly K) : K := min w.outMoles c.mole / c.mole

/-- The part of the inflow that is taken. -/
def inflowShare (w : Flows K) (c : Poly K) : K := (w.outMoles - min w.outMoles c.mole) / w.inMoles c

/-- Mass taken from the contents. -/
def fromContent (w : Flows K) (c : Poly K) : K := w.contentShare c * c.mass

/-- Mass taken from the inflow. -/
def fromInflow (w : Flows K) (c : Poly K) : K := w.inflowShare c * w.inMass

/-- Mass of a constituent taken. -/
def outPart (w : Flows K) (c : Poly K) (i : Nat) : K :=
  w.contentShare c * (c.parts i).mass + w.inflowShare c * w.inPart i

/-- Mass that is left. -/
def left (w : Flows K) (c : Poly K) : K := c.mass + w.inMass - (w.fromContent c + w.fromInflow c)

/-- Mass of a constituent that is left. -/
def leftPart (w : Flows K) (c : Poly K) (i : Nat) : K := (c.parts i).mass + w.inPart i - w.outPart c i

end Flows

/-- No more is asked for than is there, and what flows in is nothing or more than `DBL_EPSILON`. -/
structure Asked (w : Flows K) (c : Poly K) : Prop where
  dt : 0 < w.dt
  outs : ∀ f ∈ w.outs, 0 ≤ f
  enough : w.outMoles ≤ c.mole + w.inMoles c
  inMass : w.ins = [] ∨ dblEps < w.inMass
  fromContent : w.fromContent c = 0 ∨ (dblEps * w.dt ≤ w.fromContent c ∧
    ∀ i, i < c.n → (c.parts i).massFraction = 0 ∨
      dblEps * dblEps * w.dt ≤ w.fromContent c * (c.parts i).massFraction)
  fromInflow : w.fromInflow c = 0 ∨ (dblEps * w.dt ≤ w.fromInflow c ∧
    ∀ i, i < c.n → w.inPart i = 0 ∨ dblEps * dblEps * w.dt ≤ w.inflowShare c * w.inPart i)

/-- The amounts of a step are large enough, or zero: none of the code's guards against small numbers acts, and
no more is asked for than is there. -/
structure Moderate (w : Flows K) (c : Poly K) : Prop extends Asked w c where
  left : dblEps ≤ w.left c
  parts : ∀ i, i < c.n → w.leftPart c i = 0 ∨ dblEps * dblEps * w.left c ≤ w.leftPart c i

end Gunns.Fluid
