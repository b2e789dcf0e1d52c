import Mathlib.Algebra.Order.Field.Basic

/-!
# What relief and regulator valves should do

A valve with hysteresis: it opens along one curve, closes along another and holds in between. Nothing here mentions
the valve states or the line coefficients of the code.
-/

namespace Gunns.FluidValve.Spec

variable {K : Type _} [Field K] [LinearOrder K] [IsStrictOrderedRing K]

/-- The end of the steep part of a curve. -/
def knee (start full pop scale : K) : K := start + pop * (full - start) / scale

/-- The broken line through (start, 0), (knee, pop) and (full, 1), constant outside. -/
def curve (start full pop scale p : K) : K :=
  if p ≤ start then 0
  else if p ≤ knee start full pop scale then scale * (p - start) / (full - start)
  else if p ≤ full then
    pop + (1 - pop) * (p - knee start full pop scale) / (full - knee start full pop scale)
  else 1

/-- The hysteresis of a valve with opening curve `o` and closing curve `c`: it is pushed open by `o`, pushed closed by
`c`, and holds otherwise. -/
def play (o c : K → K) (y p : K) : K := max (o p) (min (c p) y)

/-- The way from `y` to `x`, at most `d` long. -/
def toward (d y x : K) : K := max (y - d) (min (y + d) x)

/-- The positions of a rate limited valve with hysteresis, step by step. -/
def track (o c : K → K) (rate y : K) (p dt : Nat → K) : Nat → K
  | 0 => y
  | n + 1 => toward (rate * dt n) (track o c rate y p dt n) (play o c (track o c rate y p dt n) (p n))

end Gunns.FluidValve.Spec
