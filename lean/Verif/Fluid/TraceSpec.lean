import Verif.Fluid.Trace
import Verif.Fluid.NodeSpec

/-!
# What a fluid node should do with trace compounds in a step
-/

namespace Gunns.Fluid

open Finset

variable {K : Type _} [Field K] [LinearOrder K] [IsStrictOrderedRing K]

/-- What links do to a node between `resetFlows` and `integrateFlows`. -/
inductive TCollect (K : Type _)
  /-- a flow of fluid with trace compounds -/
  | inflow (src : Poly K) (tc : Tc K) (rate : K)
  /-- a trace compound on its own -/
  | trace (index : Int) (rate : K)
  | schedule (flux : K)
  | heat (q : K)
  | outflux (rate : K)

/-- The call. A link that passes an index out of range gets an exception, and the node is as before. -/
def TCollect.run (th : Thermo K) (g : TcConfig K) (s : TNode K) : TCollect K → TNode K
  | .inflow src tc rate => s.collectInflux th g rate src tc
  | .trace i rate => (s.collectTc g i rate).getD s
  | .schedule f => { s with fluid := scheduleOutflux f s.fluid }
  | .heat q => { s with fluid := collectHeatFlux q s.fluid }
  | .outflux f => { s with fluid := collectOutflux f s.fluid }

/-- The calls without trace compounds. -/
def plain (ops : List (TCollect K)) : List (Collect K) :=
  ops.filterMap (fun o => match o with
    | .inflow src _ rate => some (.inflow src rate)
    | .trace _ _ => none
    | .schedule f => some (.schedule f)
    | .heat q => some (.heat q)
    | .outflux f => some (.outflux f))

/-- The flows of fluid. -/
def tins (ops : List (TCollect K)) : List (Poly K × Tc K × K) :=
  ops.filterMap (fun o => match o with | .inflow src tc rate => some (src, tc, rate) | _ => none)

/-- Moles per second of a trace compound that come with flows of fluid: flux times mole fraction. -/
def tcFlow (l : List (Poly K × Tc K × K)) (j : Nat) : K := (l.map (fun a => a.2.2 / a.1.mweight * a.2.1.frac j)).sum

/-- Moles per second of the constituents of `c` in flows of fluid. -/
def molFlow (c : Poly K) (l : List (Poly K × Tc K × K)) : K :=
  (l.map (fun a => ∑ i ∈ range c.n, a.2.2 * (a.1.parts i).massFraction / c.mw i)).sum

/-- Mass of a trace compound that comes with flows of fluid in a step. -/
def tcIn (g : TcConfig K) (dt : K) (ops : List (TCollect K)) (j : Nat) : K := tcFlow (tins ops) j * dt * g.mw j

/-- Mass of a trace compound that comes on its own in a step; it goes if this is negative. -/
def tcGiven (dt : K) (ops : List (TCollect K)) (j : Nat) : K :=
  (ops.map (fun o => match o with | .trace i rate => if i = (j : Int) then rate else 0 | _ => 0)).sum * dt

/-- The trace compounds of a mixture of so many moles are in order. -/
def Tidy (g : TcConfig K) (moles : K) (t : Tc K) : Prop :=
  ∀ j, j < g.n → 0 ≤ t.mass j ∧ t.mass j = t.frac j * moles * g.mw j ∧ (t.frac j = 0 ∨ dblEps ≤ t.frac j)

/-- A fraction that the code does not round to zero: mass `m` in so many moles of fluid. -/
def Enough (g : TcConfig K) (j : Nat) (moles m : K) : Prop := m = 0 ∨ dblEps * moles * g.mw j ≤ m

/-- The part of the contents' trace compounds, and of what flows in, that is taken. -/
def tcOut (g : TcConfig K) (w : Flows K) (c : Poly K) (t : Tc K) (ops : List (TCollect K)) (j : Nat) : K :=
  w.contentShare c * t.mass j + w.inflowShare c * tcIn g w.dt ops j

/-- No mole fraction on the way is below `DBL_EPSILON` without being zero, no more is removed than is there, and no
trace compounds are given on their own to a node that overflows. -/
structure TraceModerate (g : TcConfig K) (w : Flows K) (c : Poly K) (t : Tc K) (ops : List (TCollect K)) : Prop where
  weights : ∀ j, j < g.n → 0 < g.mw j
  collected : ∀ pre suf, tins ops = pre ++ suf → ∀ j, j < g.n → tcFlow pre j = 0 ∨ dblEps * molFlow c pre ≤ tcFlow pre j
  drained : w.ins = [] ∨ min w.outMoles c.mole = 0 ∨ dblEps < min w.outMoles c.mole
  mixed : ∀ j, j < g.n → Enough g j (c.mole + w.inMoles c - w.outMoles) (t.mass j + tcIn g w.dt ops j - tcOut g w c t ops j)
  final : ∀ j, j < g.n → Enough g j (c.mole + w.inMoles c - w.outMoles)
    (t.mass j + tcIn g w.dt ops j - tcOut g w c t ops j + tcGiven w.dt ops j)
  out : ∀ j, j < g.n → Enough g j w.outMoles (tcOut g w c t ops j)
  given : w.outMoles ≤ c.mole ∨ ∀ j, j < g.n → tcGiven w.dt ops j = 0

end Gunns.Fluid
