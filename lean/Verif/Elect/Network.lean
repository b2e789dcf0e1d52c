import Verif.Elect.SwitchSpec
import Verif.Solver.Spec

/-!
# Switches in a network

Model of the part of `GunnsElectUserLoadSwitch2` (aspects/electrical/Switch/GunnsElectUserLoadSwitch2.cpp) the solver
sees, and what is assumed of the network around.  Left out: user loads and their fuses (lines 354-362, 268-272), the
loads override, shorts.  What the sensors read is an arbitrary function of the state of links and nodes.
-/

namespace Gunns.Sw

open Gunns

variable {σ K : Type _} [Field K] [LinearOrder K]

/-- `GunnsElectUserLoadSwitch2::confirmSolutionAcceptable`, GunnsElectUserLoadSwitch2.cpp:343-387, given what the
sensors read. -/
def linkConfirm (s : Switch K) (current voltage : K) (convergedStep : Nat) : SolRes × Switch K :=
  if convergedStep > 0 then
    let t := s.updateTrips current voltage convergedStep
    (if t.waiting then .delay else if t.just then .reject else .confirm, t)
  else (.delay, s)

/-- A network in which the links `isSw` are switches: `sw l` is the switch of link `l`, `amps l` and `volts l` are what
its sensors read.  The answers of links change neither the readings nor switches of other
links.  Between the polls of one solution nothing else happens; between solutions the links may do anything that keeps
their switches reachable. -/
structure SwitchNet (M : Methods σ K) (isSw : Nat → Prop) (sw : Nat → σ → Switch K) (amps volts : Nat → Env σ K → K) :
    Prop where
  reached : ∀ l x, isSw l → Reached (sw l x)
  confirm : ∀ l n m e, isSw l →
    (M.confirm l n m e).1 = (linkConfirm (sw l e.priv) (amps l e) (volts l e) n).1 ∧
    sw l (M.confirm l n m e).2.priv = (linkConfirm (sw l e.priv) (amps l e) (volts l e) n).2
  confirmOther : ∀ l j n m e, isSw l → j ≠ l → sw l (M.confirm j n m e).2.priv = sw l e.priv
  readings : ∀ l j n m e, isSw l →
    amps l (M.confirm j n m e).2 = amps l e ∧ volts l (M.confirm j n m e).2 = volts l e

/-- The switch has a reason to trip or to reset a voltage trip. -/
def Pending (s : Switch K) (current voltage : K) : Prop :=
  (Watching s ∧ ∃ w, w.opens ∧ Due s current voltage w) ∨
  (Recovering s ∧ ∃ w r, ResetOf s w r ∧ Due s current voltage r)

/-- No trip is forced, and all trips have the priority `p`. -/
def Priority (s : Switch K) (p : Nat) : Prop := ∀ w, (s.get w).force = false ∧ (s.get w).priority = p

/-- The link is a switch the solver polls. -/
def Polled (c : Cfg K) (isSw : Nat → Prop) (l : Nat) : Prop := l < c.numLinks ∧ c.nonLinear l = true ∧ isSw l

/-- A polled switch trips, or resets a trip, in the minor step of record `r` only in its turn, when no switch with a
lower priority number waits. -/
def Coordinated (c : Cfg K) (isSw : Nat → Prop) (prio : Nat → Nat) (r : MinorRec K) : Prop :=
  ∀ l, Polled c isSw l → (l, SolRes.reject) ∈ r.answers →
    r.convergedStep = prio l ∧
    ∀ l', Polled c isSw l' → prio l' < prio l → ∀ a, (l', a) ∈ r.answers ↔ a = .confirm

end Gunns.Sw
