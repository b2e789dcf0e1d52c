import Verif.Base.Const
import Verif.Math.Interp
import Mathlib.Analysis.SpecialFunctions.Sqrt

/-!
# A balloon

Model of `GunnsFluidBalloon` (aspects/fluid/capacitor/GunnsFluidBalloon.cpp and .hh): a tank whose volume is proportional to the pressure
difference between inside, port 0, and outside, port 1, between a least and a greatest volume.

Simplifications: doubles are elements of an ordered field, real numbers for the pressure correction with its square root.  Of the node
only the volume is kept.  Edits enter by their target pressure, as `computeEditTargetPressure` gives it.  The shell's heat, the edits of
partial pressure rates and the rest of the tank are left out.
-/

namespace Gunns.Balloon

open Gunns.Interp (limitRange)

section volume

variable {K : Type*} [Field K] [LinearOrder K] [IsStrictOrderedRing K]

/-- `mMinVolume`, GunnsFluidBalloon.cpp:21. -/
def minVolume : K := 1 / 10 ^ 12

/-- Configuration. -/
structure Config (K : Type*) where
  /-- `mInflatability` -/
  inflatability : K
  /-- `mMaxVolume` -/
  maxVolume : K

/-- `validate`, GunnsFluidBalloon.cpp:228-241. -/
def Config.Valid (c : Config K) : Prop := fltEps ≤ c.inflatability ∧ minVolume + fltEps ≤ c.maxVolume

/-- `InflationStates`, GunnsFluidBalloon.hh:128-134. -/
inductive Phase
  | deflated
  | deflating
  | partly
  | inflating
  | inflated
  deriving DecidableEq, Repr

/-- The state: `mInflation`, `mInflationState` and the volume of the node. -/
structure State (K : Type*) where
  inflation : K
  phase : Phase
  volume : K

/-- The malfunctions and the pressures of a pass. -/
structure Pass (K : Type*) where
  /-- `mMalfStuckFlag` -/
  stuck : Bool
  /-- `mMalfInflatabilityScaleValue` if `mMalfInflatabilityScaleFlag` -/
  scale : Option K
  /-- `mPotentialVector` -/
  p0 : K
  p1 : K

/-- `updateInflatability`, GunnsFluidBalloon.cpp:308-315. -/
def actual (c : Config K) (q : Pass K) : K :=
  match q.scale with
  | some x => max (c.inflatability * x) dblEps
  | none => max c.inflatability dblEps

/-- `computeVolumeFromPressure`, GunnsFluidBalloon.hh:259-264. -/
def fromPressure (c : Config K) (q : Pass K) (p : K) : K := limitRange minVolume (actual c q * (p - q.p1)) c.maxVolume

/-- The classification of `updateInflation`, GunnsFluidBalloon.cpp:346-356; `old` is the volume of the node. -/
def classify (c : Config K) (old volume : K) : Phase :=
  if minVolume = volume then .deflated
  else if c.maxVolume = volume then .inflated
  else if old + fltEps < volume then .inflating
  else if volume < old - fltEps then .deflating
  else .partly

/-- `updateInflation`, GunnsFluidBalloon.cpp:337-358, and the volume given to the node, 326. -/
def inflate (c : Config K) (q : Pass K) (s : State K) : State K :=
  let volume := if q.stuck then s.inflation * (c.maxVolume - minVolume) + minVolume else fromPressure c q q.p0
  { inflation := if q.stuck then s.inflation else (volume - minVolume) / (c.maxVolume - minVolume)
    phase := classify c s.volume volume
    volume := volume }

/-- The pressure edit that comes with a volume edit, GunnsFluidBalloon.cpp:371-376. -/
def pressureEdit (c : Config K) (q : Pass K) (volume : K) : K := limitRange minVolume volume c.maxVolume / actual c q + q.p1

/-- The volume that comes with a pressure edit, GunnsFluidBalloon.cpp:367-369. -/
def volumeEdit (c : Config K) (q : Pass K) (pressure : K) : K := fromPressure c q pressure

/-- The end of `processVolumeEdit`, GunnsFluidBalloon.cpp:378-389. -/
def editVolume (c : Config K) (volume : K) (s : State K) : State K :=
  { s with volume := if volume < minVolume then minVolume else if c.maxVolume < volume then c.maxVolume else volume }

/-- The pressure the tank edits to, GunnsFluidTank.cpp:480-489: the target, or the present pressure of the node if that is less than
`FLT_EPSILON`. -/
def tankEdit (target present : K) : K := if target < fltEps then present else target

/-- What is done to a balloon: a pass, an edit of the volume, or an edit of the pressure (each in a pass). -/
inductive Op (K : Type*)
  | pass (q : Pass K)
  | volume (v : K)
  | pressure (q : Pass K) (p : K)

/-- One operation. -/
def apply (c : Config K) (s : State K) : Op K → State K
  | .pass q => inflate c q s
  | .volume v => editVolume c v s
  | .pressure q p => editVolume c (volumeEdit c q p) s

/-- Several. -/
def run (c : Config K) (ops : List (Op K)) (s : State K) : State K := ops.foldl (apply c) s

/-- The additional capacitance, GunnsFluidBalloon.cpp:282-287, from the density and the molecular weight of the contents. -/
def inflatableCapacitance (c : Config K) (q : Pass K) (s : State K) (rho w : K) : K :=
  if s.volume = c.maxVolume ∨ q.stuck = true then 0 else actual c q * rho / w

end volume

/-! ## Pressure correction -/

/-- `computePressureCorrection`, GunnsFluidBalloon.cpp:434-488: the gain; `k` the inflatability, `pc` the node's correction, `p` and `v`
its pressure and volume, `m` the product of temperature, mass and gas constant over the molecular weight. -/
noncomputable def gain (inflation : ℝ) (stuck : Bool) (k pc p v m : ℝ) : ℝ :=
  if 0 < inflation ∧ inflation < 1 ∧ stuck = false then
    let a := k * pc * pc
    let b := pc * (k * p + v)
    let c := v * p - m
    let d := b * b - 4 * a * c
    if 0 < |a| ∧ 0 < d then
      let plus := (-b + Real.sqrt d) * (1 / 2) / a
      let minus := (-b - Real.sqrt d) * (1 / 2) / a
      if |plus| < |minus| then plus else minus
    else 0
  else 1

/-- The correction, GunnsFluidBalloon.cpp:487. -/
noncomputable def correction (inflation : ℝ) (stuck : Bool) (k pc p v m : ℝ) : ℝ := gain inflation stuck k pc p v m * pc

end Gunns.Balloon
