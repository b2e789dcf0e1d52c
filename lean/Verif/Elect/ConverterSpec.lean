import Verif.Elect.Converter

/-!
# What is expected of a converter

Written from the physics and the class documentation, without the helper functions of the model.
-/

namespace Gunns.Conv

open Gunns

variable {K : Type _} [Field K] [LinearOrder K]

/-- The current the output gives to its node in the system of equations that was solved: what a source of
`o.source` amperes in parallel with a conductance `o.adm` to ground gives at the potential of the node.  Negative if
the link takes current from the node. -/
def Out.delivered (o : Out K) : K := o.source - o.adm * o.pot

/-- The current the input takes from its node in the system of equations that was solved. -/
def In.drawn (i : In K) : K := i.adm * i.pot - i.source

/-- The output is switched on. -/
def Out.On (o : Out K) : Prop :=
  o.enabled = true ∧ o.available = true ∧ o.ov.tripped = false ∧ o.uv.tripped = false ∧ o.oc.tripped = false

/-- The input is switched on. -/
def In.On (i : In K) : Prop :=
  i.enabled = true ∧ i.overloaded = false ∧ i.ov.tripped = false ∧ i.uv.tripped = false

/-- The voltage a voltage regulator holds: the setpoint, or for a transformer the setpoint times the voltage at the
input. -/
def Out.target (o : Out K) : K :=
  match o.reg with
  | .transformer => o.setpoint * o.voltage
  | _ => o.setpoint

/-- The regulator holds a voltage rather than a current. -/
def Reg.Holds (r : Reg) : Prop := r = .voltage ∨ r = .transformer

/-- The configuration passed the checks of initialisation. -/
def Out.Sound (o : Out K) : Prop := dblEps ≤ o.conductance ∧ dblEps ≤ o.efficiency ∧ o.efficiency ≤ 1

/-- One call by the solver. -/
inductive Ev (K : Type _) where
  | inMinor
  | outMinor (minorStep : Nat)
  /-- the links receive new potentials -/
  | pots (vIn vOut : K)
  | inConfirm (convergedStep : Nat)
  | outConfirm (convergedStep : Nat)
  | inReset (convergedStep : Nat)
  | outReset

/-- The state after one call. -/
def happen (sq : K → K) (p : Pair K) : Ev K → Pair K
  | .inMinor => p.inMinor
  | .outMinor n => p.outMinor sq n
  | .pots a b => p.setPots a b
  | .inConfirm n => (p.inConfirm n).2
  | .outConfirm n => (p.outConfirm sq n).2
  | .inReset n => p.inReset n
  | .outReset => p.outReset

/-- In this call the input link rejects the solution although the output has no objection. -/
def InRejects (p : Pair K) : Ev K → Prop
  | .inConfirm n => (p.inConfirm n).1 = .reject ∧ (p.inConfirm n).2.inp.powerValid = true
  | _ => False

/-- In this call the output link rejects the solution although the input has no objection. -/
def OutRejects (sq : K → K) (p : Pair K) : Ev K → Prop
  | .outConfirm n => (p.outConfirm sq n).1 = .reject ∧ (p.outConfirm sq n).2.out.voltageValid = true
  | _ => False

open Classical in
/-- Number of the calls with property `P` in a sequence of calls. -/
noncomputable def countCalls (sq : K → K) (P : Pair K → Ev K → Prop) : Pair K → List (Ev K) → Nat
  | _, [] => 0
  | p, e :: es => (if P p e then 1 else 0) + countCalls sq P (happen sq p e) es

/-- One minor step of both links, in the order of the network: the link that leads the interface comes first. -/
def Pair.round (sq : K → K) (p : Pair K) (minorStep : Nat) : Pair K :=
  if p.inp.leads then p.inMinor.outMinor sq minorStep else (p.outMinor sq minorStep).inMinor

end Gunns.Conv
