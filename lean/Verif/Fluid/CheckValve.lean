import Verif.Base.Const
import Verif.Math.Interp

/-!
# Check valves and three-way valves

`GunnsFluidCheckValve`, `GunnsFluid3WayValve` and `GunnsFluid3WayCheckValve`: how they move and how the three-way valves
set the positions of their two paths. What a position does to the flow is in Verif/Fluid/Conductivity.lean.

Simplifications: doubles are numbers of an ordered field; a step sees the pressure drops that the network gives, the time
step and the malfunctions; the assignment of nodes to the two paths of a three-way valve is left out.
-/

namespace Gunns.FluidValve

open Gunns.Interp (limitRange)

variable {K : Type _} [Field K] [LinearOrder K] [IsStrictOrderedRing K]

/-- The malfunctions that both check valves have, and the time step. -/
structure Move (K : Type _) where
  /-- `mMalfStuckFlag` -/
  stuck : Bool
  /-- `mMalfFailToFlag` -/
  failTo : Bool
  /-- `mMalfFailToValue` -/
  failValue : K
  /-- `dt` -/
  dt : K

/-- Data of a check valve, aspects/fluid/conductor/GunnsFluidCheckValve.hh:159-161. -/
structure Check (K : Type _) where
  /-- `mRateLimit` -/
  rate : K
  /-- `mClosePressure` -/
  shut : K
  /-- `mOpenPressure` -/
  full : K

/-- `GunnsFluidCheckValve::validate` with the position from `GunnsFluidValve::validate`,
aspects/fluid/conductor/GunnsFluidCheckValve.cpp:213-229 and GunnsFluidValve.cpp:231. -/
def Check.valid (c : Check K) (position failValue : K) : Bool :=
  if ¬(0 ≤ position ∧ position ≤ 1) then false
  else if c.rate < 0 then false
  else if c.full < c.shut then false
  else if ¬(0 ≤ failValue ∧ failValue ≤ 1) then false
  else true

/-- The rate limit of both check valves, GunnsFluidCheckValve.cpp:269-272 and GunnsFluid3WayCheckValve.cpp:268-271. -/
def rateLimited (rate dt previous position : K) : K :=
  let maxDelta := rate * dt
  limitRange (max 0 (previous - maxDelta)) position (min 1 (previous + maxDelta))

/-- The position without rate limit, GunnsFluidCheckValve.cpp:257-266. -/
def Check.target (c : Check K) (drop : K) : K :=
  if drop ≥ c.full then 1
  else if drop ≤ c.shut then 0
  else (drop - c.shut) / (c.full - c.shut)

/-- `GunnsFluidCheckValve::updateState`, GunnsFluidCheckValve.cpp:248-277, from the position before. -/
def Check.step (c : Check K) (m : Move K) (drop position : K) : K :=
  if m.stuck then position
  else if m.failTo then limitRange 0 m.failValue 1
  else rateLimited c.rate m.dt position (c.target drop)

/-- Data of a three-way valve, aspects/fluid/conductor/GunnsFluid3WayValve.hh. -/
structure Three (K : Type _) where
  /-- `mPositionPathB` -/
  pathB : Bool
  /-- `mNonMixingBand` -/
  band : K

/-- `GunnsFluid3WayValve::validate`, aspects/fluid/conductor/GunnsFluid3WayValve.cpp:246-259. -/
def Three.valid (c : Three K) (position : K) : Bool :=
  if ¬(0 ≤ c.band ∧ c.band ≤ 1 - dblEps) then false
  else if ¬(0 ≤ position ∧ position ≤ 1) then false
  else true

/-- The positions of paths A and B, `GunnsFluid3WayValve::updateState`,
aspects/fluid/conductor/GunnsFluid3WayValve.cpp:312-333. -/
def Three.paths (c : Three K) (position : K) : K × K :=
  if c.band > 0 then
    let width := max dblEps (1 / 2 - 1 / 2 * c.band)
    if c.pathB then
      (max 0 ((width - position) / width), max 0 ((position - (1 - width)) / width))
    else (max 0 ((position - (1 - width)) / width), max 0 ((width - position) / width))
  else if c.pathB then (1 - position, position)
  else (position, 1 - position)

/-- Data of a three-way check valve, aspects/fluid/conductor/GunnsFluid3WayCheckValve.hh. -/
structure ThreeCheck (K : Type _) where
  /-- `mPositionPathB` -/
  pathB : Bool
  /-- `mRateLimit` -/
  rate : K
  /-- `mOpenPressureA` -/
  fullA : K
  /-- `mOpenPressureB` -/
  fullB : K
  /-- `mMinPressureDiff` -/
  minDiff : K

/-- `GunnsFluid3WayCheckValve::validate`, aspects/fluid/conductor/GunnsFluid3WayCheckValve.cpp:223-239, after that of the
three-way valve, whose band has its default 0 (:67-70). -/
def ThreeCheck.valid (c : ThreeCheck K) (position failValue : K) : Bool :=
  if ¬(0 ≤ position ∧ position ≤ 1) then false
  else if c.rate < 0 then false
  else if c.fullA - c.minDiff ≤ dblEps ∨ c.fullB - c.minDiff ≤ dblEps then false
  else if ¬(0 ≤ failValue ∧ failValue ≤ 1) then false
  else true

/-- `GunnsFluid3WayCheckValve::calculateValvePosition`, GunnsFluid3WayCheckValve.cpp:284-318; line 307 has the open
pressure of path A. -/
def ThreeCheck.target (c : ThreeCheck K) (dropA dropB position : K) : K :=
  if dropA < 0 ∧ dropB < 0 then position
  else
    let x :=
      if |dropA - dropB| < c.minDiff then 1 / 2
      else if dropA > dropB then
        limitRange (1 / 2) (1 / 2 * (1 + (dropA - dropB - c.minDiff) / (c.fullA - c.minDiff))) 1
      else if dropB > dropA then
        limitRange 0 (1 / 2 * (1 - (dropB - dropA - c.minDiff) / (c.fullA - c.minDiff))) (1 / 2)
      else position
    if c.pathB then 1 - x else x

/-- `GunnsFluid3WayCheckValve::updateState`, GunnsFluid3WayCheckValve.cpp:255-277, from the position before. -/
def ThreeCheck.step (c : ThreeCheck K) (m : Move K) (dropA dropB position : K) : K :=
  if m.stuck then position
  else if m.failTo then limitRange 0 m.failValue 1
  else rateLimited c.rate m.dt position (c.target dropA dropB position)

/-- The positions of its paths, by `GunnsFluid3WayValve::updateState` at the end (:276). -/
def ThreeCheck.paths (c : ThreeCheck K) (position : K) : K × K := Three.paths ⟨c.pathB, 0⟩ position

end Gunns.FluidValve
