import Verif.Units.TsConversion

/-!
# What units are

The units of the conversions by their definitions, each as a size in the SI unit of its quantity, independently
of the constants of the code.
-/

namespace Gunns.Units

/-- A minute, s. -/
def minute : ℚ := 60
/-- An hour, s. -/
def hour : ℚ := 60 * minute
/-- A day, s. -/
def day : ℚ := 24 * hour
/-- A year that is no leap year, s. -/
def year : ℚ := 365 * day
/-- An international foot, m. -/
def foot : ℚ := 3048 / 10000
/-- An inch, m. -/
def inch : ℚ := foot / 12
/-- The standard acceleration of gravity, m/s². -/
def gravity : ℚ := 980665 / 100000
/-- An international pound, kg. -/
def pound : ℚ := 45359237 / 100000000
/-- A pound (of force) for each square inch, Pa. -/
def psi : ℚ := pound * gravity / inch ^ 2
/-- A conventional millimetre of mercury, Pa. -/
def mmHg : ℚ := 13595.1 * gravity / 1000
/-- A conventional inch of water, Pa. -/
def inchWater : ℚ := 1000 * gravity * inch
/-- A torr, Pa. -/
def torr : ℚ := 101325 / 760
/-- An international British thermal unit, J: 4186.8 J/kg/K times a pound and a degree Fahrenheit. -/
def btu : ℚ := 4186.8 * pound * (5 / 9)
/-- A cubic foot a minute of dry air (28.96 g/mol) at 0 degrees Celsius and one atmosphere, kg/s. -/
def scfm : ℚ := 0.02896 * 101325 / (8.314462618 * 273.15) * foot ^ 3 / minute

/-- A unit for measuring: `x` of it are `size * (x + shift)`. -/
structure Measure where
  /-- Its size. -/
  size : ℝ
  /-- What is added to a value. -/
  shift : ℝ

/-- The quantity that is `x` in the unit. -/
def Measure.amount (u : Measure) (x : ℝ) : ℝ := u.size * (x + u.shift)

/-- A unit whose zero is nothing. -/
def plain (size : ℝ) : Measure := ⟨size, 0⟩

/-- A scale of temperature, by its values for melting ice and for boiling water: the quantity is the part of the
way from one to the other. -/
noncomputable def thermo (ice boil : ℝ) : Measure := ⟨1 / (boil - ice), -ice⟩

/-- The Celsius scale. -/
noncomputable def celsius : Measure := thermo 0 100
/-- The Fahrenheit scale. -/
noncomputable def fahrenheit : Measure := thermo 32 212
/-- The Kelvin scale. -/
noncomputable def kelvin : Measure := thermo 273.15 373.15
/-- The Rankine scale. -/
noncomputable def rankine : Measure := thermo 491.67 671.67

/-- What a type of conversion converts, to what, and the error there may be for each unit of the quantity; not for
decibels. -/
noncomputable def Kind.measures : Kind → Option (Measure × Measure × ℝ)
  | .noConversion => some (plain 1, plain 1, 0)
  | .unitToMicro => some (plain 1, plain (1 / 1000000), 0)
  | .unitToMilli => some (plain 1, plain (1 / 1000), 0)
  | .unitToKilo => some (plain 1, plain 1000, 0)
  | .unitToMega => some (plain 1, plain 1000000, 0)
  | .fracToPercent => some (plain 1, plain (1 / 100), 0)
  | .unitPerSecToUnitPerHour => some (plain 1, plain (1 / hour), 0)
  | .fToR => some (fahrenheit, rankine, 0)
  | .fToC => some (fahrenheit, celsius, 0)
  | .fToK => some (fahrenheit, kelvin, 0)
  | .rToF => some (rankine, fahrenheit, 0)
  | .rToC => some (rankine, celsius, 0)
  | .rToK => some (rankine, kelvin, 0)
  | .cToF => some (celsius, fahrenheit, 0)
  | .cToR => some (celsius, rankine, 0)
  | .cToK => some (celsius, kelvin, 0)
  | .kToC => some (kelvin, celsius, 0)
  | .kToF => some (kelvin, fahrenheit, 0)
  | .kToR => some (kelvin, rankine, 0)
  | .kpaToPsi => some (plain 1000, plain psi, 1e-7)
  | .kpaToMmhg => some (plain 1000, plain mmHg, 1e-7)
  | .kpaToMillitorr => some (plain 1000, plain (torr / 1000), 3e-7)
  | .kpaToInh2o => some (plain 1000, plain inchWater, 0)
  | .psiToKpa => some (plain psi, plain 1000, 1e-7)
  | .kgPerSecToLbmPerHour => some (plain 1, plain (pound / hour), 1e-7)
  | .kgPerSecToScfm0c => some (plain 1, plain scfm, 2e-3)
  | .lbmPerHourToKgPerSec => some (plain (pound / hour), plain 1, 1e-7)
  | .prToDb => none
  | .dbToPr => none
  | .wToDbw => none
  | .radToDeg => some (plain 1, plain (Real.pi / 180), 0)
  | .degToRad => some (plain (Real.pi / 180), plain 1, 0)
  | .radpersecToRpm => some (plain 1, plain (2 * Real.pi / minute), 0)
  | .rpmToRadpersec => some (plain (2 * Real.pi / minute), plain 1, 0)

/-- The number of a type: its place in the declaration. -/
def Kind.number (k : Kind) : ℤ := k.ctorIdx

/-- The type that converts back, where there is one. -/
def Kind.back : Kind → Option Kind
  | .noConversion => some .noConversion
  | .fToR => some .rToF
  | .fToC => some .cToF
  | .fToK => some .kToF
  | .rToF => some .fToR
  | .rToC => some .cToR
  | .rToK => some .kToR
  | .cToF => some .fToC
  | .cToR => some .rToC
  | .cToK => some .kToC
  | .kToC => some .cToK
  | .kToF => some .fToK
  | .kToR => some .rToK
  | .kpaToPsi => some .psiToKpa
  | .psiToKpa => some .kpaToPsi
  | .kgPerSecToLbmPerHour => some .lbmPerHourToKgPerSec
  | .lbmPerHourToKgPerSec => some .kgPerSecToLbmPerHour
  | .radToDeg => some .degToRad
  | .degToRad => some .radToDeg
  | .radpersecToRpm => some .rpmToRadpersec
  | .rpmToRadpersec => some .radpersecToRpm
  | _ => none

/-- The four scales of temperature. -/
inductive Scale
  /-- Fahrenheit. -/
  | f
  /-- Rankine. -/
  | r
  /-- Celsius. -/
  | c
  /-- Kelvin. -/
  | k
deriving DecidableEq

/-- The type that converts one scale to another. -/
def between : Scale → Scale → Kind
  | .f, .r => .fToR
  | .f, .c => .fToC
  | .f, .k => .fToK
  | .r, .f => .rToF
  | .r, .c => .rToC
  | .r, .k => .rToK
  | .c, .f => .cToF
  | .c, .r => .cToR
  | .c, .k => .cToK
  | .k, .c => .kToC
  | .k, .f => .kToF
  | .k, .r => .kToR
  | .f, .f => .noConversion
  | .r, .r => .noConversion
  | .c, .c => .noConversion
  | .k, .k => .noConversion

/-- The constants of `UnitConversion` that are named X_PER_Y, with the sizes of X and of Y. -/
def ratios : List (ℚ × ℚ × ℚ) := [
  (milliPerUnit, 1 / 1000, 1),
  (unitPerMilli, 1, 1 / 1000),
  (kiloPerUnit, 1000, 1),
  (unitPerKilo, 1, 1000),
  (megaPerUnit, 1000000, 1),
  (unitPerMega, 1, 1000000),
  (secPerYear, 1, year),
  (secPerDay, 1, day),
  (secPerHr, 1, hour),
  (secPerMin, 1, minute),
  (hrPerSec, hour, 1),
  (minPerHr, minute, hour),
  (hrPerMin, hour, minute),
  (hrPerDay, hour, day),
  (minPerSec, minute, 1),
  (daysPerYear, day, year),
  (commonYearSec, 1, year),
  (hzPerMhz, 1, 1000000),
  (mhzPerHz, 1000000, 1),
  (inPerFtUtil, inch, foot),
  (ftPerIn, foot, inch),
  (ftPerYd, foot, 3 * foot),
  (ydPerFt, 3 * foot, foot),
  (mPerIn, 1, inch),
  (cmPerIn, 1 / 100, inch),
  (inPerCm, inch, 1 / 100),
  (inPerM, inch, 1),
  (mPerFt, 1, foot),
  (ftPerM, foot, 1),
  (mPerKm, 1, 1000),
  (kmPerM, 1000, 1),
  (in2PerFt2Util, inch ^ 2, foot ^ 2),
  (ft2PerIn2, foot ^ 2, inch ^ 2),
  (m2PerIn2Util, 1, inch ^ 2),
  (in2PerM2, inch ^ 2, 1),
  (m2PerFt2, 1, foot ^ 2),
  (ft2PerM2, foot ^ 2, 1),
  (in3PerFt3, inch ^ 3, foot ^ 3),
  (ft3PerIn3, foot ^ 3, inch ^ 3),
  (m3PerIn3, 1, inch ^ 3),
  (in3PerM3, inch ^ 3, 1),
  (m3PerFt3, 1, foot ^ 3),
  (ft3PerM3, foot ^ 3, 1),
  (m3PerMl, 1, 1 / 1000000),
  (mlPerM3, 1 / 1000000, 1),
  (paPerPsi, 1, psi),
  (kpaPerPsi, 1000, psi),
  (psiPerPa, psi, 1),
  (psiPerKpa, psi, 1000),
  (torrPerPsi, 101325 / 760, psi),
  (torrPerKpa, 101325 / 760, 1000),
  (psiPerTorr, psi, 101325 / 760),
  (psiPerAtm, psi, 101325),
  (atmPerPsi, 101325, psi),
  (paPerAtm, 1, 101325),
  (atmPerPa, 101325, 1),
  (mmhgPerPsi, mmHg, psi),
  (kpaPerMmhg, 1000, mmHg),
  (paPerKpa, 1, 1000),
  (kpaPerPa, 1000, 1),
  (kpaPerMmh2o, 1000, 1000 * gravity / 1000),
  (kpaPerKgfPerCm2, 1000, gravity * 10000),
  (kgPerLbm, 1, pound),
  (lbmPerKg, pound, 1),
  (gPerLbm, 1 / 1000, pound),
  (lbmPerG, pound, 1 / 1000),
  (kgPerSecPerLbmPerHr, 1, pound / hour),
  (lbmPerHrPerKgPerSec, pound / hour, 1),
  (kgPerSecPerLbmPerSec, 1, pound),
  (lbmPerSecPerKgPerSec, pound, 1),
  (nPerLbf, 1, pound * gravity),
  (lbfPerN, pound * gravity, 1),
  (nMPerInLbf, 1, inch * (pound * gravity)),
  (inLbfPerNM, inch * (pound * gravity), 1),
  (jPerBtu, 1, btu),
  (btuPerJ, btu, 1),
  (kjPerBtu, 1000, btu),
  (btuPerKj, btu, 1000),
  (wSPerBtu, 1, btu),
  (btuPerWS, btu, 1),
  (wPerBtuPerHr, 1, btu / hour),
  (btuPerHrPerW, btu / hour, 1),
  (btuPerHrPerKw, btu / hour, 1000),
  (kwPerBtuPerHr, 1000, btu / hour),
  (btuOverLbmfPerKjOverKgk, btu / (pound * (5 / 9)), 1000),
  (kjOverKgkPerBtuOverLbmf, 1000, btu / (pound * (5 / 9))),
  (jOverKgkPerBtuOverLbmf, 1, btu / (pound * (5 / 9))),
  (fPerC, 5 / 9, 1),
  (cPerF, 1, 5 / 9)]

/-- The constants of TS_conversions.c that are named X_PER_Y, with the sizes of X and of Y. -/
def tsRatios : List (ℚ × ℚ × ℚ) := [
  (tsSecPerDay, 1, day),
  (tsSecPerHr, 1, hour),
  (tsMinPerHr, minute, hour),
  (tsSecPerMin, 1, minute),
  (tsDayPerSec, day, 1),
  (tsHrPerSec, hour, 1),
  (tsHrPerMin, hour, minute),
  (tsHrPerDay, hour, day),
  (tsMinPerSec, minute, 1),
  (tsCommonYearSec, 1, year),
  (tsHzPerMhz, 1, 1000000),
  (tsMhzPerHz, 1000000, 1),
  (tsInPerFt, inch, foot),
  (tsFtPerIn, foot, inch),
  (tsFtPerYd, foot, 3 * foot),
  (tsYdPerFt, 3 * foot, foot),
  (tsCmPerIn, 1 / 100, inch),
  (tsInPerCm, inch, 1 / 100),
  (tsMPerIn, 1, inch),
  (tsInPerM, inch, 1),
  (tsFtPerM, foot, 1),
  (tsMPerFt, 1, foot),
  (tsFtPerMi, foot, 5280 * foot),
  (tsMiPerFt, 5280 * foot, foot),
  (tsFtPerNmi, foot, 1852),
  (tsNmiPerFt, 1852, foot),
  (tsMPerKm, 1, 1000),
  (tsKmPerM, 1000, 1),
  (tsIn2PerFt2, inch ^ 2, foot ^ 2),
  (tsFt2PerIn2, foot ^ 2, inch ^ 2),
  (tsIn2PerM2, inch ^ 2, 1),
  (tsM2PerIn2, 1, inch ^ 2),
  (tsFt2PerM2, foot ^ 2, 1),
  (tsM2PerFt2, 1, foot ^ 2),
  (tsIn3PerFt3, inch ^ 3, foot ^ 3),
  (tsFt3PerIn3, foot ^ 3, inch ^ 3),
  (tsIn3PerM3, inch ^ 3, 1),
  (tsM3PerIn3, 1, inch ^ 3),
  (tsFt3PerM3, foot ^ 3, 1),
  (tsM3PerFt3, 1, foot ^ 3),
  (tsPaPerPsi, 1, psi),
  (tsPsiPerPa, psi, 1),
  (tsTorrPerPsi, 101325 / 760, psi),
  (tsPsiPerTorr, psi, 101325 / 760),
  (tsAtmPerPsi, 101325, psi),
  (tsPsiPerAtm, psi, 101325),
  (tsPaPerAtm, 1, 101325),
  (tsAtmPerPa, 101325, 1),
  (tsMmhgPerPsi, mmHg, psi),
  (tsKgPerLbm, 1, pound),
  (tsGPerLbm, 1 / 1000, pound),
  (tsLbmPerKg, pound, 1),
  (tsLbmPerG, pound, 1 / 1000),
  (tsKgPerSecPerLbmPerHr, 1, pound / hour),
  (tsLbmPerHrPerKgPerSec, pound / hour, 1),
  (tsKgPerSecPerLbmPerSec, 1, pound),
  (tsLbmPerSecPerKgPerSec, pound, 1),
  (tsBtuPerJ, btu, 1),
  (tsJPerBtu, 1, btu),
  (tsKjPerBtu, 1000, btu),
  (tsBtuPerKj, btu, 1000),
  (tsBtuPerWS, btu, 1),
  (tsWSPerBtu, 1, btu),
  (tsBtuPerHrPerW, btu / hour, 1),
  (tsWPerBtuPerHr, 1, btu / hour),
  (tsBtuPerHrPerKw, btu / hour, 1000),
  (tsKwPerBtuPerHr, 1000, btu / hour),
  (tsFPerC, 5 / 9, 1),
  (tsCPerF, 1, 5 / 9)]

end Gunns.Units
