import Verif.Elect.Battery
import Mathlib.Algebra.BigOperators.Group.List.Basic
import Mathlib.Algebra.Order.BigOperators.Group.List

/-!
# What a battery should do

Charge in ampere-seconds, capacity in ampere-hours.
-/

namespace Gunns.Elect.Spec

open Gunns.Elect

variable {K : Type _} [Field K] [LinearOrder K] [IsStrictOrderedRing K]

/-- Capacity of a cell, in ampere-hours. -/
def cap (c : Cell K) : K := if c.malfCapFlag = true then c.malfCapValue else c.maxCapacity

/-- Charge in a cell: its capacity times its state of charge, in ampere-seconds. -/
def charge (c : Cell K) : K := 3600 * (cap c * c.soc)

/-- Charge in a battery. -/
def stored (cells : List (Cell K)) : K := (cells.map charge).sum

/-- A cell without malfunction, with some charge left. -/
def Healthy (c : Cell K) : Prop :=
  c.malfOpen = false ∧ c.malfShort = false ∧ c.runFlag = false ∧ dblEps < cap c

/-- A cell that is disconnected by the open-circuit malfunction and has no other. -/
def Disconnected (c : Cell K) : Prop := c.malfOpen = true ∧ c.malfShort = false

/-- The state of charge after the cell gave `current` for `dt` seconds, without regard to the limits. -/
def socAfter (current dt : K) (c : Cell K) : K := c.soc - current * dt / (3600 * cap c)

end Gunns.Elect.Spec
