import Verif.Elect.Converter
import Verif.Solver.Model

/-!
# A converter in a network

The two links of a converter as links `a` (input) and `b` (output) of a network: what the solver calls on them is what
Elect/Converter describes, with the potentials the solver has given the links; no other link touches them.
-/

namespace Gunns.Conv

open Gunns

variable {σ K : Type _} [Field K] [LinearOrder K]

/-- The pair with the potentials of the links (`mPotentialVector[0]`). -/
def seen (a b : Nat) (e : Env σ K) (p : Pair K) : Pair K :=
  { p with
    inp := { p.inp with pot := e.linkPot a 0 }
    out := { p.out with pot := e.linkPot b 0 } }

/-- A network with a converter.  `get` is the converter; its fields `pot` are not used: the links read the
potentials the solver has given them.  `resetLastMinorStep` of the input may change its potential, which is not described
here. -/
structure ConvNet (M : Methods σ K) (sq : K → K) (a b : Nat) (get : σ → Pair K) : Prop where
  stepIn : ∀ e, get (M.step a e).priv = (seen a b e (get e.priv)).inStep
  stepOut : ∀ e, get (M.step b e).priv = (seen a b e (get e.priv)).outStep sq
  stepOther : ∀ l e, l ≠ a → l ≠ b → get (M.step l e).priv = get e.priv
  minorIn : ∀ m e, get (M.minorStep a m e).priv = (seen a b e (get e.priv)).inMinor
  minorOut : ∀ m e, get (M.minorStep b m e).priv = (seen a b e (get e.priv)).outMinor sq m
  minorOther : ∀ l m e, l ≠ a → l ≠ b → get (M.minorStep l m e).priv = get e.priv
  confirmIn : ∀ n m e, (M.confirm a n m e).1 = ((seen a b e (get e.priv)).inConfirm n).1 ∧
    get (M.confirm a n m e).2.priv = ((seen a b e (get e.priv)).inConfirm n).2
  confirmOut : ∀ n m e, (M.confirm b n m e).1 = ((seen a b e (get e.priv)).outConfirm sq n).1 ∧
    get (M.confirm b n m e).2.priv = ((seen a b e (get e.priv)).outConfirm sq n).2
  confirmOther : ∀ l n m e, l ≠ a → l ≠ b → get (M.confirm l n m e).2.priv = get e.priv
  resetIn : ∀ n m e, get (M.resetMinor a n m e).2.priv = (seen a b e (get e.priv)).inReset n
  resetOut : ∀ n m e, get (M.resetMinor b n m e).2.priv = (seen a b e (get e.priv)).outReset
  resetOther : ∀ l n m e, l ≠ a → l ≠ b → get (M.resetMinor l n m e).2.priv = get e.priv
  inputs : ∀ l e, get (M.processInputs l e).priv = get e.priv
  flows : ∀ e, get (M.resetFlows e).priv = get e.priv
  update : ∀ l e, get (M.needAdmittanceUpdate l e).2.priv = get e.priv
  transport : ∀ e, (get (M.transport e).priv).linked = (get e.priv).linked ∧
    (get (M.transport e).priv).inp = (get e.priv).inp.flows ∧ (get (M.transport e).priv).out = (get e.priv).out.flows
  outputs : ∀ l e, get (M.processOutputs l e).priv = get e.priv

/-- `n` steps one after the other, each of which ends normally and leaves a state with the property `G`. -/
inductive Steps (M : Methods σ K) (c : Cfg K) (G : State σ K → Prop) : Nat → State σ K → State σ K → Prop
  | zero (s : State σ K) : Steps M c G 0 s s
  | succ {n : Nat} {s t u : State σ K} (h : Steps M c G n s t) (hs : step M c t = .ok u) (hg : G u) :
      Steps M c G (n + 1) s u

/-- The converter's links are on the solver's list of non-linear links of a running network. -/
def Hosted (c : Cfg K) (a b : Nat) : Prop :=
  a < c.numLinks ∧ b < c.numLinks ∧ c.nonLinear a = true ∧ c.nonLinear b = true ∧ a ≠ b ∧ c.linear = false ∧
  c.mode = .normal ∧ c.paused = false

/-- A pair whose input is on the ground node. -/
def SpareIn (p : Pair K) : Prop := p.linked = true ∧ p.inp.ground = true ∧ p.out.ground = false

/-- A pair whose output is on the ground node. -/
def SpareOut (p : Pair K) : Prop := p.linked = true ∧ p.out.ground = true ∧ p.inp.ground = false

end Gunns.Conv
