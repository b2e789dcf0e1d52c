import Verif.Control.Pid

/-!
# Specification of the PID controller
-/

namespace Gunns.Control.Spec

open Gunns.Control

variable {K : Type _} [Field K] [LinearOrder K] [IsStrictOrderedRing K]

/-- A call of the controller: time step, input, setpoint. -/
structure Call (K : Type _) where
  dt : K
  input : K
  setpoint : K

/-- The controller after some calls. -/
def run (c : Pid K) (l : List (Call K)) : Pid K :=
  l.foldl (fun c i => c.call i.dt i.input i.setpoint) c

/-- The updates that a controller with the given interval makes during some calls, `t` after the last one:
the time since the update before and the error. -/
def updates (interval : K) : K → List (Call K) → List (K × K)
  | _, [] => []
  | t, i :: l =>
    if interval ≤ t + i.dt then (t + i.dt, i.input - i.setpoint) :: updates interval 0 l
    else updates interval (t + i.dt) l

/-- The time since the last update after some calls. -/
def sinceUpdate (interval : K) : K → List (Call K) → K
  | t, [] => t
  | t, i :: l => if interval ≤ t + i.dt then sinceUpdate interval 0 l else sinceUpdate interval (t + i.dt) l

/-- Integral of the error over the updates. -/
def integralOf (u : List (K × K)) : K := (u.map fun x => x.1 * x.2).sum

/-- `a` within limits. -/
def clip (low high a : K) : K := max low (min a high)

/-- Values below the threshold may count as zero. -/
def Nearly (eps a b : K) : Prop := a = b ∨ (a = 0 ∧ |b| < eps)

end Gunns.Control.Spec
