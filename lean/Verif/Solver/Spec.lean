import Verif.Solver.Model

/-!
# Vocabulary for the statements about a step

Nothing here refers to the functions of the model, only to its data.
-/

namespace Gunns

variable {σ K : Type _} [Field K] [LinearOrder K]

/-- The potentials held by nodes and links are `pot`: nodes hold `pot`, the ground node holds zero and each
port holds the potential of its node. -/
structure Agree (size numLinks : Nat) (e : Env σ K) (pot : Nat → K) : Prop where
  nodes : ∀ n, n < size → e.nodePot n = pot n
  ground : e.nodePot size = 0
  links : ∀ l, l < numLinks → ∀ p, p < (e.views l).ports → (e.views l).nodeMap p ≤ size →
    e.linkPot l p = e.nodePot ((e.views l).nodeMap p)

/-- The records end with a run whose first step was solved and within the tolerance of the last saved
potentials; the other steps of the run only polled the links again; `pot` are the potentials of all of
them. -/
def ConvergedRun (size : Nat) (tol : K) (run : List (MinorRec K)) (pot : Nat → K) : Prop :=
  ∃ r0 rest, run = r0 :: rest ∧ r0.skipped = false ∧ (∀ n, n < size → |r0.before n - r0.pot n| ≤ tol) ∧
    (∀ r ∈ run, r.pot = pot) ∧ ∀ r ∈ rest, r.skipped = true

/-- In consecutive records, the potentials saved before the second are those of the first, or the ones
saved before it when the first was rejected. -/
def Chained (size : Nat) (hist : List (MinorRec K)) : Prop :=
  ∀ pre a b post, hist = pre ++ a :: b :: post →
    ∀ n, n < size → b.before n = if a.result = .reject then a.before n else a.pot n

/-- A link method that leaves potentials and port assignments alone. -/
def Quiet (f : Env σ K → Env σ K) : Prop :=
  ∀ e, (f e).nodePot = e.nodePot ∧ (f e).linkPot = e.linkPot ∧
    ∀ l, ((f e).views l).ports = (e.views l).ports ∧ ((f e).views l).nodeMap = (e.views l).nodeMap

/-- The calls that let a solution take effect outside the solver. -/
def Call.effect : Call → Bool
  | .transport => true
  | .outputs _ => true
  | _ => false

/-- `Call.step`. -/
def Call.isStep : Call → Bool
  | .step _ => true
  | _ => false

end Gunns

namespace Gunns

variable {σ K : Type _} [Field K] [LinearOrder K]

/-! ## Links that report their admittance changes

`pend j` says, from the private state of the links, that link `j` has an admittance change to report. -/

/-- Same contribution to the admittance matrix. -/
def AdmSame (v v' : LinkView K) : Prop := v'.mapSize = v.mapSize ∧ v'.map = v.map ∧ v'.adm = v.adm

/-- A method after which every link that changed its admittance has that change to report, and which
forgets no earlier change. -/
def Honest (pend : Nat → σ → Prop) (f : Env σ K → Env σ K) : Prop :=
  ∀ e j, (AdmSame (e.views j) ((f e).views j) ∨ pend j (f e).priv) ∧ (pend j e.priv → pend j (f e).priv)

/-- Links that report their changes.  A link changes only its own admittance in its step and minor step. -/
structure HonestLinks (pend : Nat → σ → Prop) (M : Methods σ K) : Prop where
  processInputs : ∀ l, Honest pend (M.processInputs l)
  resetFlows : Honest pend M.resetFlows
  step : ∀ l, Honest pend (M.step l)
  stepOwn : ∀ l e j, j ≠ l → AdmSame (e.views j) ((M.step l e).views j)
  minorStep : ∀ l n, Honest pend (M.minorStep l n)
  minorOwn : ∀ l n e j, j ≠ l → AdmSame (e.views j) ((M.minorStep l n e).views j)
  /-- the question whether a link changed changes nothing, and hears of every pending change of that link -/
  updateSame : ∀ l e j, AdmSame (e.views j) ((M.needAdmittanceUpdate l e).2.views j)
  updateKeeps : ∀ l e j, j ≠ l → pend j e.priv → pend j (M.needAdmittanceUpdate l e).2.priv
  updateHears : ∀ l e, pend l e.priv → (M.needAdmittanceUpdate l e).1 = true
  confirm : ∀ l a b, Honest pend fun e => (M.confirm l a b e).2
  resetMinor : ∀ l a b, Honest pend fun e => (M.resetMinor l a b e).2
  transport : Honest pend M.transport
  processOutputs : ∀ l, Honest pend (M.processOutputs l)

end Gunns
