import Verif.Control.Thermostat

/-!
# What a thermostat should do

Written on what is read and what is set, without the functions of the model.
-/

namespace Gunns.Control.Spec

open Gunns.Sensor

variable {K : Type _} [Field K] [LinearOrder K]

/-- The temperature below which the heater comes on: half the nominal width below the setpoint. -/
def lowOf (t : Thermostat K) : K := t.setpt - (t.nominalHigh - t.nominalLow) / 2

/-- The temperature above which it goes off. -/
def highOf (t : Thermostat K) : K := t.setpt + (t.nominalHigh - t.nominalLow) / 2

/-- What is enough to switch the heater on: one cold sensor, or for AND logic all of them. -/
def Cold (low : K) (t : Thermostat K) : Prop :=
  if t.logic = .and then ∀ x ∈ t.sensors, x.sensed < low else ∃ x ∈ t.sensors, x.sensed < low

/-- What is needed to keep it on: one sensor that is not hot, or for AND logic none that is. -/
def NotHot (high : K) (t : Thermostat K) : Prop :=
  if t.logic = .and then ∀ x ∈ t.sensors, x.sensed ≤ high else ∃ x ∈ t.sensors, x.sensed ≤ high

/-- What may happen between two updates: everything but the configuration and the commands, which are the
thermostat's own. -/
def Outside (s t : Thermostat K) : Prop :=
  t.logic = s.logic ∧ t.nominalLow = s.nominalLow ∧ t.nominalHigh = s.nominalHigh ∧
  t.nominalSetpt = s.nominalSetpt ∧ t.nominal = s.nominal ∧ t.command = s.command ∧ t.actual = s.actual

/-- A thermostat whose nominal values are right. -/
def Ready (s : Thermostat K) : Prop :=
  s.nominalLow < s.nominalHigh ∧ s.nominalSetpt = (s.nominalLow + s.nominalHigh) / 2

variable [IsStrictOrderedRing K] [FloorRing K]

/-- A run of `N` updates, with anything happening outside in between. -/
def Run (N : ℕ) (s : ℕ → Thermostat K) : Prop :=
  ∀ n, n < N → ∃ t dt, Outside (s n) t ∧ t.update dt = some (s (n + 1))

/-- A command that follows setpoints: on if a time was cold enough and since then no time too hot to stay on. -/
def Since (low high : ℕ → K) (s : ℕ → Thermostat K) (n : ℕ) : Prop :=
  ∃ i, 1 ≤ i ∧ i ≤ n ∧ Cold (low i) (s i) ∧ ∀ j, i ≤ j → j ≤ n → NotHot (high j) (s j)

end Gunns.Control.Spec
