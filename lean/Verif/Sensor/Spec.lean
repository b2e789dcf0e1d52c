import Verif.Sensor.Analog

/-!
# What a sensor should do

Written from the documentation of the sensors; only the record of the sensor is shared with the model.
-/

namespace Gunns.Sensor.Spec

open Gunns.Sensor

variable {K : Type _} [Field K] [LinearOrder K]

/-- A value limited to a range. -/
def clamp (lo hi x : K) : K := if x < lo then lo else if hi < x then hi else x

/-- What can be felt of a truth: nothing below the least normal float. -/
def felt (x : K) : K := if |x| < 1 / 2 ^ 126 then 0 else x

/-- The sensor is on. -/
def On (s : Base) : Prop := (s.power = true ∨ s.ignorePower = true) ∧ s.failOff = false

instance (s : Base) : Decidable (On s) := by unfold On; infer_instance

/-- The sensor senses: it is on, and no failure replaces its output. -/
def Sensing (s : Base) : Prop := s.perfect = false ∧ On s ∧ s.failTo = false ∧ s.failStuck = false

/-- The gain: the nominal scale, and that of the malfunction. -/
def gain (s : Analog K) : K := s.scale * (if s.malfScale then s.malfScaleValue else 1)

/-- The offset: the nominal bias, and that of the malfunction. -/
def offset (s : Analog K) : K := s.bias + (if s.malfBias then s.malfBiasValue else 0)

/-- The drift after a step: it grows while the malfunction is active and is zero otherwise. -/
def driftAfter (timeStep : K) (s : Analog K) : K :=
  if s.malfDrift then s.drift + s.malfDriftRate * timeStep else 0

/-- What a sensor without noise, of unlimited range and resolution, would show. -/
def ideal (timeStep : K) (s : Analog K) : K :=
  gain s * s.convert (felt s.truthInput) + offset s + driftAfter timeStep s

/-- The amplitudes of the noise: the share of the signal, and the constant. -/
def amplitudes (s : Analog K) : K × K :=
  if s.malfNoise then (s.malfNoiseMult, s.malfNoiseScale) else (s.noiseMult, s.noiseScale)

/-- The most that noise can add, when its values are in [-1, 1]. -/
def noiseBound (timeStep : K) (s : Analog K) : K :=
  if s.hasNoise then |(amplitudes s).1| * |ideal timeStep s - s.offValue| + |(amplitudes s).2| else 0

/-- The resolution of the output: none if it is not above FLT_EPSILON. -/
def step (s : Analog K) : K :=
  let r := |if s.malfResolution then s.malfResolutionValue else s.resolution|
  if 1 / 2 ^ 23 < r then r else 0

/-- Some malfunction changes what the sensor shows. -/
def Malfunction (s : Analog K) : Prop :=
  s.failTo = true ∨ s.failOff = true ∨ s.failStuck = true ∨ s.malfScale = true ∨ s.malfBias = true ∨
    s.malfDrift = true ∨ s.malfNoise = true ∨ s.malfResolution = true

/-- What happens to a sensor between two updates: anything may be set but the range, the last output and the
drift, which are the sensor's own. -/
def Outside (g : Analog K → Analog K) : Prop :=
  ∀ s, (g s).minRange = s.minRange ∧ (g s).maxRange = s.maxRange ∧ (g s).sensed = s.sensed ∧ (g s).drift = s.drift

variable [IsStrictOrderedRing K] [FloorRing K]

/-- A history of a sensor: what happens outside, and then an update, any number of times. -/
def history : List ((Analog K → Analog K) × K) → Analog K → Option (Analog K)
  | [], s => some s
  | (g, dt) :: l, s => ((g s).update dt).bind (history l)

end Gunns.Sensor.Spec
