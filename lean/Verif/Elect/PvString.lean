import Mathlib.Algebra.Order.Floor.Ring
import Mathlib.Data.Rat.Floor
import Mathlib.Analysis.SpecialFunctions.Trigonometric.Basic
import Mathlib.Analysis.SpecialFunctions.Pow.Real
import Verif.Base.Const
import Verif.Math.Interp
import Verif.Elect.PvCell

/-!
# Strings and sections of the solar array

Model of `GunnsElectPvString` and its input data (`aspects/electrical/SolarArray/GunnsElectPvString.cpp`), of what
`GunnsElectPvString2` has in place of it (`GunnsElectPvString2.cpp`, here Two) and of the environment that
`GunnsElectPvSection` gives its strings (`GunnsElectPvSection.cpp`, here Section).

Simplifications: doubles are elements of an ordered field (real numbers where there is a square root, a sine or a power).
The configuration is as `validate` leaves it, so the interval of the bypass diodes is not zero.  A division by zero is
`none` where the code can reach it.  `mShunted` is left out: it is only a flag for the regulator.
-/

namespace Gunns.Pv

open Gunns.Interp (limitRange)

section Field

variable {K : Type} [Field K] [LinearOrder K]

/-- `GunnsElectPvLoadData`, GunnsElectPvString.hh: a working point. -/
structure Load (K : Type) where
  conductance : K
  current : K
  power : K
  voltage : K
  deriving DecidableEq

/-- `GunnsElectPvLoadData::clear`. -/
def Load.clear : Load K := ⟨0, 0, 0, 0⟩

/-- The configuration, `GunnsElectPvStringConfigData` and `GunnsElectPvCellConfigData`. -/
structure StringConfig (K : Type) where
  blockingDrop : K
  bypassDrop : K
  interval : ℕ
  numCells : ℕ
  area : K
  efficiency : K
  series : K
  shunt : K
  voc : K
  refTemp : K
  voltCoeff : K
  currCoeff : K

/-- What a string gets each step: its environment, and the malfunctions of the string (hh: `mMalfDegrade*`,
`mMalfCellGroup*`), `none` when the flag is off. -/
structure StringInput (K : Type) where
  flux : K
  exposed : K
  temp : K
  degrade : Option K
  groups : Option ℤ

/-- The outputs of a string: shunt and series drops, source current, resistances and the points of its I-V curve. -/
structure PvString (K : Type) where
  active : ℤ
  shuntDrop : K
  seriesDrop : K
  source : K
  rsh : K
  rs : K
  isc : K
  voc : K
  mpp : Load K

/-- `updateBypassedGroups`, GunnsElectPvString.cpp:816-825. -/
def bypassedGroups [FloorRing K] (c : StringConfig K) (i : StringInput K) : ℤ :=
  let numGroups : ℤ := (c.numCells / c.interval : ℕ)
  let shaded : ℤ := ⌈(numGroups : K) * (1 - limitRange 0 i.exposed 1)⌉
  match i.groups with
  | none => shaded
  | some m => max shaded (max (min m numGroups) 0)

/-- `mNumActiveCells`, GunnsElectPvString.cpp:751. -/
def activeCells [FloorRing K] (c : StringConfig K) (i : StringInput K) : ℤ :=
  c.numCells - bypassedGroups c i * c.interval

/-- `mIdealDiodeFactor`, GunnsElectPvString.cpp:552. -/
def idealDiode : K := 1000000

/-- `updateMpp`, GunnsElectPvString.cpp:833-854. -/
def stringMpp (c : StringConfig K) (active : ℤ) (shuntDrop seriesDrop source rsh rs : K) : Load K :=
  let ish := shuntDrop / rsh
  let is := source - ish
  let power := max 0 (shuntDrop * source - shuntDrop * ish - is * seriesDrop - is * is * active * c.series)
  if power > 0 then
    let v := max dblEps (shuntDrop - is * rs - seriesDrop)
    ⟨power / v / v, power / v, power, v⟩
  else ⟨0, 0, power, 0⟩

/-- `update`, GunnsElectPvString.cpp:747-801. -/
def updateString [FloorRing K] (c : StringConfig K) (i : StringInput K) : PvString K :=
  let n := activeCells c i
  let rsh := max (1 / idealDiode) c.shunt
  let dT := i.temp - c.refTemp
  let shuntDrop := n * c.voc * max (1 + dT * c.voltCoeff) 0
  let rs := max (1 / idealDiode) (n * c.series)
  let seriesDrop := c.blockingDrop + bypassedGroups c i * c.bypassDrop
  let conv := c.efficiency * max (1 + dT * c.currCoeff) 0
  let power := i.flux * n * c.area * conv
  let power := match i.degrade with
    | none => power
    | some d => power * limitRange 0 (1 - d) 1
  let source := if shuntDrop > dblEps then power / shuntDrop else 0
  if 0 < n then
    { active := n
      shuntDrop := shuntDrop
      seriesDrop := seriesDrop
      source := source
      rsh := rsh
      rs := rs
      isc := max 0 ((source * rsh - seriesDrop) / (rsh + rs))
      voc := shuntDrop - seriesDrop + source * rsh / idealDiode
      mpp := stringMpp c n shuntDrop seriesDrop source rsh rs }
  else
    { active := n
      shuntDrop := shuntDrop
      seriesDrop := seriesDrop
      source := source
      rsh := rsh
      rs := rs
      isc := 0
      voc := 0
      mpp := Load.clear }

/-- `predictCurrentAtVoltage`, GunnsElectPvString.cpp:957-970. -/
def PvString.predict (s : PvString K) (v : K) : K :=
  if ¬ (dblEps ≤ v ∧ v ≤ s.voc) then 0
  else if v ≤ s.mpp.voltage then s.isc - (s.isc - s.mpp.current) * v / s.mpp.voltage
  else s.mpp.current * (s.voc - v) / (s.voc - s.mpp.voltage)

/-- `loadAtVoltage`, GunnsElectPvString.cpp:899-919. -/
def PvString.loadAtVoltage (s : PvString K) (v : K) : Load K :=
  if ¬ (dblEps ≤ v ∧ v ≤ s.voc) then ⟨0, 0, 0, v⟩
  else if v ≤ s.mpp.voltage then
    let i := s.isc - (s.isc - s.mpp.current) * v / s.mpp.voltage
    ⟨i / v, i, v * i, v⟩
  else
    let i := s.mpp.current * (s.voc - v) / (s.voc - s.mpp.voltage)
    ⟨i / v, i, v * i, v⟩

/-- `loadAtConductance`, GunnsElectPvString.cpp:927-947; `none` is a division by zero. -/
def PvString.loadAtConductance (s : PvString K) (g : K) : Option (Load K) :=
  if g < dblEps ∨ s.isc < dblEps then some ⟨g, 0, 0, s.voc⟩
  else if g ≤ s.mpp.conductance then
    if s.mpp.current = 0 then none
    else
      let den := 1 - g * (s.mpp.voltage - s.voc) / s.mpp.current
      if den = 0 then none
      else
        let i := g * s.voc / den
        some ⟨g, i, i * (i / g), i / g⟩
  else if s.mpp.current - s.isc = 0 then none
  else
    let slope := s.mpp.voltage / (s.mpp.current - s.isc)
    if 1 - g * slope = 0 then none
    else
      let i := -g * slope * s.isc / (1 - g * slope)
      some ⟨g, i, i * (i / g), i / g⟩

/-- `updateMpp` of the second model, Two:511-521. -/
def stringMpp2 (active : ℤ) (seriesDrop vmp imp : K) : Load K :=
  let v := max 0 (vmp * active - seriesDrop)
  ⟨if v > 0 then imp / v else 0, imp, v * imp, v⟩

/-- The voltage of a cell of the string, Two:609. -/
def cellVoltage (active : ℤ) (seriesDrop v : K) : K := (v + seriesDrop) / active

/-- `mOpenCircuitVoltage` of the second model, Two:499. -/
def stringVoc2 (active : ℤ) (seriesDrop voc : K) : K := max 0 (voc * active - seriesDrop)

/-- `loadAtPower` of the second model, Two:531-547. -/
def loadAtPower2 (isc voc : K) (mpp : Load K) (power : K) (shortSide : Bool) : Load K :=
  if power ≤ dblEps then
    if shortSide then ⟨isc / dblEps, isc, 0, 0⟩ else ⟨0, 0, 0, voc⟩
  else mpp

end Field

/-- `loadAtPower`, GunnsElectPvString.cpp:864-890; `old` is `mTerminal` before, which stays when only the warning is given. -/
noncomputable def PvString.loadAtPower (s : PvString ℝ) (old : Load ℝ) (power : ℝ) (shortSide : Bool) : Load ℝ :=
  if power > 0 ∧ power < s.mpp.power ∧ s.mpp.current < s.isc then
    let qa := if shortSide then s.mpp.voltage / (s.mpp.current - s.isc) else (s.mpp.voltage - s.voc) / s.mpp.current
    let qb := if shortSide then -qa * s.isc else s.voc
    let sign : ℝ := if shortSide then -1 else 1
    let qc := -power
    let disc := qb * qb - 4 * qa * qc
    if disc > 0 ∧ qa < 0 then
      let i := 1 / 2 * (sign * √disc - qb) / qa
      let v := power / i
      ⟨i / v, i, power, v⟩
    else old
  else Load.clear

/-! ## The environment of a section -/

/-- `mMalfPhotoFlux*` and the two variables of the ramp. -/
structure FluxMalf where
  flag : Bool
  magnitude : ℝ
  duration : ℝ
  rampTime : ℝ
  elapsed : ℝ
  start : ℝ

/-- `rampPhotoFlux`, GunnsElectPvString.cpp:538-546. -/
noncomputable def FluxMalf.ramp (m : FluxMalf) (time out : ℝ) : ℝ :=
  let f := if m.rampTime > 0 then 1 / 2 * (1 + Real.sin (Real.pi * (limitRange 0 (time / m.rampTime) 1 - 1 / 2))) else 1
  out + f * (m.magnitude - out)

/-- The part of `applyOverrides` for the flux, GunnsElectPvString.cpp:493-516: the flux and the state after. -/
noncomputable def FluxMalf.apply (m : FluxMalf) (dt flux : ℝ) : ℝ × FluxMalf :=
  if m.flag = true ∧ m.duration > 0 then
    let m : FluxMalf := { m with
      rampTime := limitRange 0 m.rampTime (1 / 2 * m.duration) }
    if m.elapsed > m.duration then
      (flux, { m with
        elapsed := 0 + dt
        flag := false })
    else if 0 = m.elapsed then
      (flux, { m with
        start := flux
        elapsed := m.elapsed + dt })
    else if m.elapsed > m.duration - m.rampTime then
      (m.ramp (m.duration - m.elapsed) flux, { m with
        elapsed := m.elapsed + dt })
    else if m.elapsed > m.rampTime then
      (m.magnitude, { m with
        elapsed := m.elapsed + dt })
    else
      (m.ramp m.elapsed m.start, { m with
        elapsed := m.elapsed + dt })
  else (flux, { m with
    elapsed := 0 })

/-- `facing`, Section:403-412. -/
noncomputable def facing (edgeOn : Bool) (angle exponent backside : ℝ) : ℝ :=
  let trig := if edgeOn then Real.sin angle else Real.cos angle
  let f := |trig| ^ exponent
  if trig < 0 then f * limitRange 0 (1 - backside) 1 else f

/-- `mPhotoFlux` before the overrides, Section:415-416. -/
noncomputable def sectionFlux (magnitude exposed f : ℝ) : ℝ := magnitude * exposed * f

end Gunns.Pv
