import Verif.Math.Interp

/-!
# The optical smoke detector

`/repo/gunns-ts-models/common/sensors/TsOpticSmokeDetector.cpp`.  Floats are elements of an ordered
field.

Not modelled: the two analog sensors that turn the percentages into telemetry (their truth inputs
are the percentages and their power flag is `loadOn`), and the linear voltages made from those.
-/

namespace Gunns.Smoke

open Gunns.Interp (limitRange)

variable {K : Type _} [Field K] [LinearOrder K]

/-- The settings, TsOpticSmokeDetectorConfigData. -/
structure Cfg (K : Type _) where
  obsMax : K
  obsMin : K
  contributer : K
  scatMax : K
  scatMin : K
  bitScat : K
  nomObs : K
  nomScat : K
  recovery : K
  obsOff : K
  scatOff : K

/-- `validate`, TsOpticSmokeDetector.cpp:239-261, with `FLT_MIN` as `tiny`. -/
def Cfg.Valid (tiny : K) (c : Cfg K) : Prop :=
  c.obsMin < c.obsMax ∧ c.scatMin < c.scatMax ∧ c.obsMin < c.nomObs ∧ c.scatMin < c.nomScat ∧
    c.scatMin < c.bitScat ∧ tiny < c.recovery

/-- The inputs of an update: `isPowered`, `malfPowerToOn`, `malfTotalFail`, `isBitEnabled` and
`smokeLevelFactor`. -/
structure In (K : Type _) where
  powered : Bool
  malfOn : Bool
  malfFail : Bool
  bit : Bool
  smoke : K

/-- The state: `isLoadOn`, `isBitInProcess`, `bitTimer`, `obscurationPercentage` and
`scatterPercentage`. -/
structure State (K : Type _) where
  loadOn : Bool
  inProcess : Bool
  timer : K
  obs : K
  scat : K

/-- `performBitTest`, TsOpticSmokeDetector.cpp:305-322. -/
def performBit (c : Cfg K) (bit : Bool) (dt : K) (s : State K) : State K :=
  let s1 : State K := { s with
    inProcess := decide (s.timer ≤ c.recovery)
    obs := c.obsMax }
  if bit then { s1 with scat := c.bitScat }
  else { s1 with
    timer := s1.timer + dt
    scat := c.scatMin }

/-- The part of `update` before the limits, TsOpticSmokeDetector.cpp:192-213. -/
def raw (c : Cfg K) (i : In K) (dt : K) (s : State K) : State K :=
  let on := (i.powered || i.malfOn) && !i.malfFail
  let s1 : State K := { s with loadOn := on }
  if on then
    if i.bit || s1.inProcess then performBit c i.bit dt s1
    else { s1 with
      timer := 0
      obs := c.nomObs + c.contributer * i.smoke
      scat := c.nomScat + (c.scatMax - c.nomScat) * i.smoke }
  else { s1 with
    obs := c.obsOff
    scat := c.scatOff }

/-- `update`, TsOpticSmokeDetector.cpp:189-231. -/
def update (c : Cfg K) (i : In K) (dt : K) (s : State K) : State K :=
  let s1 := raw c i dt s
  { s1 with
    obs := limitRange c.obsMin s1.obs c.obsMax
    scat := limitRange 0 s1.scat c.scatMax }

end Gunns.Smoke
