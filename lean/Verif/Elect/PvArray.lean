import Verif.Elect.PvString

/-!
# The solar array

Model of `GunnsElectPvArray` (`aspects/electrical/SolarArray/GunnsElectPvArray.cpp` and `.hh`).

Simplifications: doubles are elements of an ordered field (real numbers in `loadAtPower`).  A string is what the array asks
of it, so that both models of strings fit; the strings of all sections are in one list, in the order of the two loops.  The
percentage of insolation and the port commands are left out.
-/

namespace Gunns.Pv

section Field

variable {K : Type} [Field K] [LinearOrder K]

/-- What the array asks of a string. -/
structure StringCurve (K : Type) where
  isc : K
  voc : K
  mpp : Load K
  predict : K → K

/-- A string of the first model. -/
def PvString.curve (s : PvString K) : StringCurve K := ⟨s.isc, s.voc, s.mpp, s.predict⟩

/-- The points of the I-V curve of the array. -/
structure ArrayCurve (K : Type) where
  isc : K
  voc : K
  cornerV : K
  cornerI : K
  mpp : Load K

/-- The first loop of `updateArray`, GunnsElectPvArray.cpp:436-453: isc, voc, pmpp and vmpp. -/
def arrayScan (strings : List (StringCurve K)) : K × K × K × K :=
  strings.foldl (fun a s =>
    let b := (a.1 + s.isc, max a.2.1 s.voc)
    if s.mpp.power > a.2.2.1 then (b.1, b.2, s.mpp.power, s.mpp.voltage) else (b.1, b.2, a.2.2.1, a.2.2.2))
    (0, 0, 0, 0)

/-- The maximum power point of the array, GunnsElectPvArray.cpp:471-480. -/
def arrayMpp (isc vmpp impp : K) : Load K :=
  let dI := isc - impp
  if dI > dblEps ∧ vmpp > dblEps then
    let v := min (1 / 2 * isc * vmpp / dI) vmpp
    let flux := isc - dI * v / vmpp
    let p := flux * v
    let i := p / max dblEps v
    ⟨i / max dblEps v, i, p, v⟩
  else Load.clear

/-- `updateArray`, GunnsElectPvArray.cpp:430-481. -/
def updateArray (strings : List (StringCurve K)) : ArrayCurve K :=
  let scan := arrayScan strings
  let vmpp := scan.2.2.2
  let impp := strings.foldl (fun a s => a + s.predict vmpp) 0
  ⟨scan.1, scan.2.1, vmpp, impp, arrayMpp scan.1 vmpp impp⟩

/-- `buildAdmittanceMatrix`, GunnsElectPvArray.cpp:488-496. -/
def ArrayCurve.admittance (a : ArrayCurve K) (openSide : Bool) : K :=
  if openSide then
    if a.voc - a.cornerV > dblEps then a.cornerI / (a.voc - a.cornerV) else 0
  else if a.cornerV > dblEps then (a.isc - a.cornerI) / a.cornerV
  else 0

/-- `buildSourceVector`, GunnsElectPvArray.hh:349-356. -/
def ArrayCurve.source (a : ArrayCurve K) (openSide : Bool) : K :=
  if openSide then a.admittance openSide * a.voc else a.admittance openSide * a.cornerV

/-- `mFlux`, GunnsElectPvArray.cpp:540. -/
def ArrayCurve.flux (a : ArrayCurve K) (openSide : Bool) (v : K) : K := a.source openSide - a.admittance openSide * v

/-- `confirmSolutionAcceptable`, GunnsElectPvArray.cpp:514-528: whether the solution is confirmed, and the side after. -/
def ArrayCurve.confirm (a : ArrayCurve K) (common openSide : Bool) (v : K) : Bool × Bool :=
  if common then
    if openSide = true ∧ v < a.cornerV then (false, false)
    else if ¬ openSide = true ∧ v ≥ a.cornerV then (false, true)
    else (true, openSide)
  else (true, openSide)

/-- The current within `predictLoadAtVoltage`, GunnsElectPvArray.cpp:583-591. -/
def ArrayCurve.currentAt (a : ArrayCurve K) (v : K) : K :=
  if v < a.cornerV then max dblEps (a.isc - (a.isc - a.cornerI) * v / a.cornerV)
  else max dblEps (a.cornerI * (v - a.voc) / (a.cornerV - a.voc))

/-- `predictLoadAtVoltage`, GunnsElectPvArray.cpp:574-595: power and conductance; `none` is a division by zero. -/
def ArrayCurve.predictLoad (a : ArrayCurve K) (v : K) : Option (K × K) :=
  if ¬ (dblEps ≤ v ∧ v ≤ a.voc) then some (0, 0)
  else if ¬ v < a.cornerV ∧ a.cornerV - a.voc = 0 then none
  else some (a.currentAt v * v, a.currentAt v * a.currentAt v / (a.currentAt v * v))

end Field

/-- `loadAtPower`, GunnsElectPvArray.cpp:605-643; `old` is `mTerminal` before, which stays when only the warning is given, and
`none` is a division by zero. -/
noncomputable def ArrayCurve.loadAtPower (a : ArrayCurve ℝ) (old : Load ℝ) (power : ℝ) (shortSide : Bool) : Option (Load ℝ) :=
  if power < dblEps then some ⟨0, 0, 0, a.voc⟩
  else if power < a.mpp.power then
    if (if shortSide then a.cornerV else a.voc - a.cornerV) = 0 then none
    else
      let adm := if shortSide then (a.isc - a.cornerI) / a.cornerV else a.cornerI / (a.voc - a.cornerV)
      let src := if shortSide then a.isc else adm * a.voc
      let sign : ℝ := if shortSide then -1 else 1
      let disc := src * src - 4 * adm * power
      if disc > 0 then
        if adm = 0 then none
        else
          let v := max dblEps (1 / 2 * (src + sign * √disc) / adm)
          some ⟨power / v / v, power / v, power, v⟩
      else some old
  else some Load.clear

end Gunns.Pv
