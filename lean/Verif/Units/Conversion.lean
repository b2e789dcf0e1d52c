import Mathlib.Analysis.SpecialFunctions.Log.Base
import Mathlib.Analysis.Real.Pi.Bounds
import Verif.Base.Const

/-!
# Unit conversions

`UnitConversion` (ms-utils/math/UnitConversion.cpp, UnitConversion.hh).

Simplifications: doubles are real numbers, and the constants are those written in the source, not the doubles
nearest to them; `std::acos(-1.0)` is π, `std::pow` the power and `std::log10` the logarithm of real numbers.
The messages sent with an exception or a warning are left out.  Constants that no conversion uses and that are
not the ratio of two units are left out.
-/

namespace Gunns.Units

open Real

/-- `MILLI_PER_UNIT`, UnitConversion.cpp:87-88. -/
def milliPerUnit : ℚ := 1.0e3

/-- `UNIT_PER_MILLI`, UnitConversion.cpp:95-96. -/
def unitPerMilli : ℚ := 1.0e-3

/-- `KILO_PER_UNIT`, UnitConversion.cpp:103-104. -/
def kiloPerUnit : ℚ := 1.0e-3

/-- `UNIT_PER_KILO`, UnitConversion.cpp:111-112. -/
def unitPerKilo : ℚ := 1.0e3

/-- `MEGA_PER_UNIT`, UnitConversion.cpp:119-120. -/
def megaPerUnit : ℚ := 1.0e-6

/-- `UNIT_PER_MEGA`, UnitConversion.cpp:127-128. -/
def unitPerMega : ℚ := 1.0e6

/-- `SEC_PER_YEAR`, UnitConversion.cpp:135-136. -/
def secPerYear : ℚ := 31536000

/-- `SEC_PER_DAY`, UnitConversion.cpp:143-144. -/
def secPerDay : ℚ := 86400.0

/-- `SEC_PER_HR`, UnitConversion.cpp:151-152. -/
def secPerHr : ℚ := 3600.0

/-- `SEC_PER_MIN`, UnitConversion.cpp:159-160. -/
def secPerMin : ℚ := 60.0

/-- `HR_PER_SEC`, UnitConversion.cpp:167-168. -/
def hrPerSec : ℚ := 1.0 / secPerHr

/-- `MIN_PER_HR`, UnitConversion.cpp:175-176. -/
def minPerHr : ℚ := secPerHr / secPerMin

/-- `HR_PER_MIN`, UnitConversion.cpp:183-184. -/
def hrPerMin : ℚ := secPerMin / secPerHr

/-- `HR_PER_DAY`, UnitConversion.cpp:191-192. -/
def hrPerDay : ℚ := secPerDay / secPerHr

/-- `MIN_PER_SEC`, UnitConversion.cpp:199-200. -/
def minPerSec : ℚ := 1.0 / secPerMin

/-- `DAYS_PER_YEAR`, UnitConversion.cpp:207-208. -/
def daysPerYear : ℚ := 365

/-- `COMMON_YEAR_SEC`, UnitConversion.cpp:263-264. -/
def commonYearSec : ℚ := daysPerYear * secPerDay

/-- `LEAP_YEAR_SEC`, UnitConversion.cpp:271-272. -/
def leapYearSec : ℚ := (daysPerYear + 1.0) * secPerDay

/-- `SEC_PER_MSEC`, UnitConversion.cpp:279-280. -/
def secPerMsec : ℚ := 1.0e3

/-- `MSEC_PER_SEC`, UnitConversion.cpp:287-288. -/
def msecPerSec : ℚ := 1.0e-3

/-- `HZ_PER_MHZ`, UnitConversion.cpp:295-296. -/
def hzPerMhz : ℚ := 1.0e6

/-- `MHZ_PER_HZ`, UnitConversion.cpp:303-304. -/
def mhzPerHz : ℚ := 1.0 / hzPerMhz

/-- `IN_PER_FT_UTIL`, UnitConversion.cpp:311-312. -/
def inPerFtUtil : ℚ := 12.0

/-- `FT_PER_IN`, UnitConversion.cpp:319-320. -/
def ftPerIn : ℚ := 1.0 / inPerFtUtil

/-- `FT_PER_YD`, UnitConversion.cpp:327-328. -/
def ftPerYd : ℚ := 3.0

/-- `YD_PER_FT`, UnitConversion.cpp:335-336. -/
def ydPerFt : ℚ := 1.0 / ftPerYd

/-- `M_PER_IN`, UnitConversion.cpp:343-344. -/
def mPerIn : ℚ := 0.0254

/-- `CM_PER_IN`, UnitConversion.cpp:351-352. -/
def cmPerIn : ℚ := 100.0 * mPerIn

/-- `IN_PER_CM`, UnitConversion.cpp:359-360. -/
def inPerCm : ℚ := 0.01 / mPerIn

/-- `IN_PER_M`, UnitConversion.cpp:367-368. -/
def inPerM : ℚ := 1.0 / mPerIn

/-- `M_PER_FT`, UnitConversion.cpp:375-376. -/
def mPerFt : ℚ := 0.3048

/-- `FT_PER_M`, UnitConversion.cpp:383-384. -/
def ftPerM : ℚ := 1.0 / mPerFt

/-- `M_PER_KM`, UnitConversion.cpp:391-392. -/
def mPerKm : ℚ := 1000.0

/-- `KM_PER_M`, UnitConversion.cpp:399-400. -/
def kmPerM : ℚ := 1.0 / mPerKm

/-- `IN2_PER_FT2_UTIL`, UnitConversion.cpp:407-408. -/
def in2PerFt2Util : ℚ := inPerFtUtil * inPerFtUtil

/-- `FT2_PER_IN2`, UnitConversion.cpp:415-416. -/
def ft2PerIn2 : ℚ := 1.0 / in2PerFt2Util

/-- `M2_PER_IN2_UTIL`, UnitConversion.cpp:423-424. -/
def m2PerIn2Util : ℚ := mPerIn * mPerIn

/-- `IN2_PER_M2`, UnitConversion.cpp:431-432. -/
def in2PerM2 : ℚ := 1.0 / m2PerIn2Util

/-- `M2_PER_FT2`, UnitConversion.cpp:439-440. -/
def m2PerFt2 : ℚ := mPerFt * mPerFt

/-- `FT2_PER_M2`, UnitConversion.cpp:447-448. -/
def ft2PerM2 : ℚ := 1.0 / m2PerFt2

/-- `IN3_PER_FT3`, UnitConversion.cpp:455-456. -/
def in3PerFt3 : ℚ := inPerFtUtil * in2PerFt2Util

/-- `FT3_PER_IN3`, UnitConversion.cpp:463-464. -/
def ft3PerIn3 : ℚ := 1.0 / in3PerFt3

/-- `M3_PER_IN3`, UnitConversion.cpp:471-472. -/
def m3PerIn3 : ℚ := mPerIn * m2PerIn2Util

/-- `IN3_PER_M3`, UnitConversion.cpp:479-480. -/
def in3PerM3 : ℚ := 1.0 / m3PerIn3

/-- `M3_PER_FT3`, UnitConversion.cpp:487-488. -/
def m3PerFt3 : ℚ := mPerFt * m2PerFt2

/-- `FT3_PER_M3`, UnitConversion.cpp:495-496. -/
def ft3PerM3 : ℚ := 1.0 / m3PerFt3

/-- `M3_PER_ML`, UnitConversion.cpp:503-504. -/
def m3PerMl : ℚ := 1.0e-6

/-- `ML_PER_M3`, UnitConversion.cpp:511-512. -/
def mlPerM3 : ℚ := 1.0 / m3PerMl

/-- `PA_PER_PSI`, UnitConversion.cpp:519-520. -/
def paPerPsi : ℚ := 6894.757

/-- `KPA_PER_PSI`, UnitConversion.cpp:527-528. -/
def kpaPerPsi : ℚ := paPerPsi * kiloPerUnit

/-- `PSI_PER_PA`, UnitConversion.cpp:535-536. -/
def psiPerPa : ℚ := 1.0 / paPerPsi

/-- `PSI_PER_KPA`, UnitConversion.cpp:543-544. -/
def psiPerKpa : ℚ := 1.0 / kpaPerPsi

/-- `TORR_PER_PSI`, UnitConversion.cpp:551-552. -/
def torrPerPsi : ℚ := paPerPsi / 133.3224

/-- `TORR_PER_KPA`, UnitConversion.cpp:559-560. -/
def torrPerKpa : ℚ := torrPerPsi * psiPerKpa

/-- `PSI_PER_TORR`, UnitConversion.cpp:567-568. -/
def psiPerTorr : ℚ := 1.0 / torrPerPsi

/-- `PSI_PER_ATM`, UnitConversion.cpp:575-576. -/
def psiPerAtm : ℚ := 101325.0 / paPerPsi

/-- `ATM_PER_PSI`, UnitConversion.cpp:583-584. -/
def atmPerPsi : ℚ := 1.0 / psiPerAtm

/-- `PA_PER_ATM`, UnitConversion.cpp:591-592. -/
def paPerAtm : ℚ := 101325.0

/-- `ATM_PER_PA`, UnitConversion.cpp:599-600. -/
def atmPerPa : ℚ := 1.0 / paPerAtm

/-- `MMHG_PER_PSI`, UnitConversion.cpp:607-608. -/
def mmhgPerPsi : ℚ := torrPerPsi

/-- `KPA_PER_MMHG`, UnitConversion.cpp:615-616. -/
def kpaPerMmhg : ℚ := 0.1333224

/-- `PA_PER_KPA`, UnitConversion.cpp:623-624. -/
def paPerKpa : ℚ := 1000.0

/-- `KPA_PER_PA`, UnitConversion.cpp:631-632. -/
def kpaPerPa : ℚ := 1.0 / paPerKpa

/-- `KPA_PER_MMH2O`, UnitConversion.cpp:639-640. -/
def kpaPerMmh2o : ℚ := 9.80665e-3

/-- `KPA_PER_KGF_PER_CM2`, UnitConversion.cpp:647-648. -/
def kpaPerKgfPerCm2 : ℚ := 9.80665e1

/-- `KG_PER_LBM`, UnitConversion.cpp:655-656. -/
def kgPerLbm : ℚ := 0.4535924

/-- `LBM_PER_KG`, UnitConversion.cpp:663-664. -/
def lbmPerKg : ℚ := 1.0 / kgPerLbm

/-- `G_PER_LBM`, UnitConversion.cpp:671-672. -/
def gPerLbm : ℚ := 1000.0 * kgPerLbm

/-- `LBM_PER_G`, UnitConversion.cpp:679-680. -/
def lbmPerG : ℚ := 1.0 / gPerLbm

/-- `KG_PER_SEC_PER_LBM_PER_HR`, UnitConversion.cpp:688-689. -/
def kgPerSecPerLbmPerHr : ℚ := 0.4535924 / secPerHr

/-- `LBM_PER_HR_PER_KG_PER_SEC`, UnitConversion.cpp:697-698. -/
def lbmPerHrPerKgPerSec : ℚ := 1.0 / kgPerSecPerLbmPerHr

/-- `KG_PER_SEC_PER_LBM_PER_SEC`, UnitConversion.cpp:705-706. -/
def kgPerSecPerLbmPerSec : ℚ := kgPerLbm

/-- `LBM_PER_SEC_PER_KG_PER_SEC`, UnitConversion.cpp:714-715. -/
def lbmPerSecPerKgPerSec : ℚ := 1.0 / kgPerSecPerLbmPerSec

/-- `SCFM0C_PER_KG_PER_SEC`, UnitConversion.cpp:724-725. -/
def scfm0cPerKgPerSec : ℚ := 455.0 * 3600.0 / 1000.0

/-- `N_PER_LBF`, UnitConversion.cpp:732-733. -/
def nPerLbf : ℚ := 4.4482216

/-- `LBF_PER_N`, UnitConversion.cpp:740-741. -/
def lbfPerN : ℚ := 1.0 / nPerLbf

/-- `N_M_PER_IN_LBF`, UnitConversion.cpp:748-749. -/
def nMPerInLbf : ℚ := 1.1298482902761670e-1

/-- `IN_LBF_PER_N_M`, UnitConversion.cpp:756-757. -/
def inLbfPerNM : ℚ := 1.0  / nMPerInLbf

/-- `J_PER_BTU`, UnitConversion.cpp:764-765. -/
def jPerBtu : ℚ := 1055.056

/-- `BTU_PER_J`, UnitConversion.cpp:772-773. -/
def btuPerJ : ℚ := 1.0 / jPerBtu

/-- `KJ_PER_BTU`, UnitConversion.cpp:780-781. -/
def kjPerBtu : ℚ := 0.001 * jPerBtu

/-- `BTU_PER_KJ`, UnitConversion.cpp:788-789. -/
def btuPerKj : ℚ := 1000.0 * btuPerJ

/-- `W_S_PER_BTU`, UnitConversion.cpp:796-797. -/
def wSPerBtu : ℚ := jPerBtu

/-- `BTU_PER_W_S`, UnitConversion.cpp:804-805. -/
def btuPerWS : ℚ := 1.0 / wSPerBtu

/-- `W_PER_BTU_PER_HR`, UnitConversion.cpp:812-813. -/
def wPerBtuPerHr : ℚ := wSPerBtu / secPerHr

/-- `BTU_PER_HR_PER_W`, UnitConversion.cpp:820-821. -/
def btuPerHrPerW : ℚ := 1.0 / wPerBtuPerHr

/-- `BTU_PER_HR_PER_KW`, UnitConversion.cpp:828-829. -/
def btuPerHrPerKw : ℚ := 1000.0 * btuPerHrPerW

/-- `KW_PER_BTU_PER_HR`, UnitConversion.cpp:836-837. -/
def kwPerBtuPerHr : ℚ := 0.001 * wPerBtuPerHr

/-- `HP_PER_FTLBF_OVER_MIN`, UnitConversion.cpp:844-845. -/
def hpPerFtlbfOverMin : ℚ := 33000.0

/-- `BTU_OVER_LBMF_PER_KJ_OVER_KGK`, UnitConversion.cpp:860-861. -/
def btuOverLbmfPerKjOverKgk : ℚ := 0.23884589663

/-- `KJ_OVER_KGK_PER_BTU_OVER_LBMF`, UnitConversion.cpp:868-869. -/
def kjOverKgkPerBtuOverLbmf : ℚ := 4.1868

/-- `J_OVER_KGK_PER_BTU_OVER_LBMF`, UnitConversion.cpp:876-877. -/
def jOverKgkPerBtuOverLbmf : ℚ := 1000.0 * kjOverKgkPerBtuOverLbmf

/-- `F_PER_C`, UnitConversion.cpp:884-885. -/
def fPerC : ℚ := 1.8

/-- `C_PER_F`, UnitConversion.cpp:892-893. -/
def cPerF : ℚ := 1.0 / fPerC

/-- `ZERO_C_IN_K`, UnitConversion.cpp:900-901. -/
def zeroCInK : ℚ := 273.15

/-- `ZERO_F_IN_R`, UnitConversion.cpp:909-910. -/
def zeroFInR : ℚ := 459.67

/-- `ZERO_C_IN_F`, UnitConversion.cpp:918-919. -/
def zeroCInF : ℚ := 32.0

/-- `PERCENTAGE`, UnitConversion.cpp:945-946. -/
def percentage : ℚ := 100.0

/-- `RAD_PER_DEG`, UnitConversion.cpp:1041-1042, of `PI_UTIL` (953-954). -/
noncomputable def radPerDeg : ℝ := π / 180

/-- `SEC_PER_MIN_PER_2PI`, UnitConversion.cpp:1129-1130, of `TWO_PI` (961-962). -/
noncomputable def secPerMinPer2Pi : ℝ := (secPerMin : ℝ) / (2 * π)

/-- `Type`, UnitConversion.hh:59-95, in its order; the numbers of the types are those of the list. -/
inductive Kind
  /-- `NO_CONVERSION` -/
  | noConversion
  /-- `UNIT_TO_MICRO` -/
  | unitToMicro
  /-- `UNIT_TO_MILLI` -/
  | unitToMilli
  /-- `UNIT_TO_KILO` -/
  | unitToKilo
  /-- `UNIT_TO_MEGA` -/
  | unitToMega
  /-- `FRAC_TO_PERCENT` -/
  | fracToPercent
  /-- `UNIT_PER_SEC_TO_UNIT_PER_HOUR` -/
  | unitPerSecToUnitPerHour
  /-- `F_TO_R` -/
  | fToR
  /-- `F_TO_C` -/
  | fToC
  /-- `F_TO_K` -/
  | fToK
  /-- `R_TO_F` -/
  | rToF
  /-- `R_TO_C` -/
  | rToC
  /-- `R_TO_K` -/
  | rToK
  /-- `C_TO_F` -/
  | cToF
  /-- `C_TO_R` -/
  | cToR
  /-- `C_TO_K` -/
  | cToK
  /-- `K_TO_C` -/
  | kToC
  /-- `K_TO_F` -/
  | kToF
  /-- `K_TO_R` -/
  | kToR
  /-- `KPA_TO_PSI` -/
  | kpaToPsi
  /-- `KPA_TO_MMHG` -/
  | kpaToMmhg
  /-- `KPA_TO_MILLITORR` -/
  | kpaToMillitorr
  /-- `KPA_TO_INH2O` -/
  | kpaToInh2o
  /-- `PSI_TO_KPA` -/
  | psiToKpa
  /-- `KG_PER_SEC_TO_LBM_PER_HOUR` -/
  | kgPerSecToLbmPerHour
  /-- `KG_PER_SEC_TO_SCFM0C` -/
  | kgPerSecToScfm0c
  /-- `LBM_PER_HOUR_TO_KG_PER_SEC` -/
  | lbmPerHourToKgPerSec
  /-- `PR_TO_DB` -/
  | prToDb
  /-- `DB_TO_PR` -/
  | dbToPr
  /-- `W_TO_DBW` -/
  | wToDbw
  /-- `RAD_TO_DEG` -/
  | radToDeg
  /-- `DEG_TO_RAD` -/
  | degToRad
  /-- `RADPERSEC_TO_RPM` -/
  | radpersecToRpm
  /-- `RPM_TO_RADPERSEC` -/
  | rpmToRadpersec
deriving DecidableEq

/-- `convertNothing`, UnitConversion.hh:366-369. -/
noncomputable def convertNothing (x : ℝ) : ℝ := x

/-- `convertUnitToMicro`, UnitConversion.hh:378-381. -/
noncomputable def convertUnitToMicro (x : ℝ) : ℝ := x * (unitPerMega : ℝ)

/-- `convertUnitToMilli`, UnitConversion.hh:390-393. -/
noncomputable def convertUnitToMilli (x : ℝ) : ℝ := x * (milliPerUnit : ℝ)

/-- `convertUnitToKilo`, UnitConversion.hh:402-405. -/
noncomputable def convertUnitToKilo (x : ℝ) : ℝ := x * (kiloPerUnit : ℝ)

/-- `convertUnitToMega`, UnitConversion.hh:414-417. -/
noncomputable def convertUnitToMega (x : ℝ) : ℝ := x * (megaPerUnit : ℝ)

/-- `convertFracToPercent`, UnitConversion.hh:426-429. -/
noncomputable def convertFracToPercent (x : ℝ) : ℝ := x * (percentage : ℝ)

/-- `convertUnitPerSecToUnitPerHour`, UnitConversion.hh:438-441. -/
noncomputable def convertUnitPerSecToUnitPerHour (x : ℝ) : ℝ := x * (secPerHr : ℝ)

/-- `convertDegFToDegR`, UnitConversion.hh:452-455. -/
noncomputable def convertDegFToDegR (x : ℝ) : ℝ := (zeroFInR : ℝ) + x

/-- `convertDegFToDegC`, UnitConversion.hh:466-469. -/
noncomputable def convertDegFToDegC (x : ℝ) : ℝ := (x - (zeroCInF : ℝ)) * (cPerF : ℝ)

/-- `convertDegFToDegK`, UnitConversion.hh:480-483. -/
noncomputable def convertDegFToDegK (x : ℝ) : ℝ := (x + (zeroFInR : ℝ)) * (cPerF : ℝ)

/-- `convertDegRToDegF`, UnitConversion.hh:494-497. -/
noncomputable def convertDegRToDegF (x : ℝ) : ℝ := x - (zeroFInR : ℝ)

/-- `convertDegRToDegC`, UnitConversion.hh:508-511. -/
noncomputable def convertDegRToDegC (x : ℝ) : ℝ := x * (cPerF : ℝ) - (zeroCInK : ℝ)

/-- `convertDegRToDegK`, UnitConversion.hh:522-525. -/
noncomputable def convertDegRToDegK (x : ℝ) : ℝ := x * (cPerF : ℝ)

/-- `convertDegCToDegF`, UnitConversion.hh:536-539. -/
noncomputable def convertDegCToDegF (x : ℝ) : ℝ := x * (fPerC : ℝ) + (zeroCInF : ℝ)

/-- `convertDegCToDegR`, UnitConversion.hh:550-553. -/
noncomputable def convertDegCToDegR (x : ℝ) : ℝ := (x + (zeroCInK : ℝ)) * (fPerC : ℝ)

/-- `convertDegCToDegK`, UnitConversion.hh:564-567. -/
noncomputable def convertDegCToDegK (x : ℝ) : ℝ := x + (zeroCInK : ℝ)

/-- `convertDegKToDegC`, UnitConversion.hh:578-581. -/
noncomputable def convertDegKToDegC (x : ℝ) : ℝ := x - (zeroCInK : ℝ)

/-- `convertDegKToDegF`, UnitConversion.hh:592-595. -/
noncomputable def convertDegKToDegF (x : ℝ) : ℝ := x * (fPerC : ℝ) - (zeroFInR : ℝ)

/-- `convertDegKToDegR`, UnitConversion.hh:606-609. -/
noncomputable def convertDegKToDegR (x : ℝ) : ℝ := x * (fPerC : ℝ)

/-- `convertKpaToPsi`, UnitConversion.hh:618-621. -/
noncomputable def convertKpaToPsi (x : ℝ) : ℝ := x * (psiPerKpa : ℝ)

/-- `convertKpaToMmhg`, UnitConversion.hh:630-633. -/
noncomputable def convertKpaToMmhg (x : ℝ) : ℝ := x / (kpaPerMmhg : ℝ)

/-- `convertKpaToMilliTorr`, UnitConversion.hh:642-645. -/
noncomputable def convertKpaToMilliTorr (x : ℝ) : ℝ := x * (torrPerKpa : ℝ) * (milliPerUnit : ℝ)

/-- `convertKpaToInh2o`, UnitConversion.hh:654-657. -/
noncomputable def convertKpaToInh2o (x : ℝ) : ℝ := x * (unitPerMilli : ℝ) * (inPerM : ℝ) / (kpaPerMmh2o : ℝ)

/-- `convertPsiToKpa`, UnitConversion.hh:666-669. -/
noncomputable def convertPsiToKpa (x : ℝ) : ℝ := x * (kpaPerPsi : ℝ)

/-- `convertKgPerSecToLbmPerHour`, UnitConversion.hh:678-681. -/
noncomputable def convertKgPerSecToLbmPerHour (x : ℝ) : ℝ := x * (lbmPerHrPerKgPerSec : ℝ)

/-- `convertKgPerSecToScfm0C`, UnitConversion.hh:690-693. -/
noncomputable def convertKgPerSecToScfm0C (x : ℝ) : ℝ := x * (scfm0cPerKgPerSec : ℝ)

/-- `convertLbmPerHourToKgPerSec`, UnitConversion.hh:702-705. -/
noncomputable def convertLbmPerHourToKgPerSec (x : ℝ) : ℝ := x * (kgPerSecPerLbmPerHr : ℝ)

/-- `convertDbToPr`, UnitConversion.hh:714-717. -/
noncomputable def convertDbToPr (x : ℝ) : ℝ := (10 : ℝ) ^ (0.1 * x)

/-- `convertRadToDeg`, UnitConversion.hh:726-729. -/
noncomputable def convertRadToDeg (x : ℝ) : ℝ := x / radPerDeg

/-- `convertDegToRad`, UnitConversion.hh:738-741. -/
noncomputable def convertDegToRad (x : ℝ) : ℝ := x * radPerDeg

/-- `convertRadPerSecToRpm`, UnitConversion.hh:750-753. -/
noncomputable def convertRadPerSecToRpm (x : ℝ) : ℝ := x * secPerMinPer2Pi

/-- `convertRpmtoRadPerSec`, UnitConversion.hh:762-765. -/
noncomputable def convertRpmtoRadPerSec (x : ℝ) : ℝ := x / secPerMinPer2Pi

/-- `convertToPercent`, UnitConversion.hh:778-781. -/
noncomputable def convertToPercent (x basisInv : ℝ) : ℝ := x * basisInv * 100

/-- `convertFromPercent`, UnitConversion.hh:794-797. -/
noncomputable def convertFromPercent (x basis : ℝ) : ℝ := x * basis * 0.01

/-- `convertPrToDb`, UnitConversion.cpp:1356-1365; `none` is the exception. -/
noncomputable def convertPrToDb (pratio : ℝ) : Option ℝ :=
  if pratio < dblEps then none else some (10 * logb 10 pratio)

/-- `convertWToDbw`, UnitConversion.cpp:1376-1390. -/
noncomputable def convertWToDbw (power : ℝ) : ℝ :=
  if power > 0 then 10 * logb 10 power else 0

/-- A conversion that never throws, as an entry of the table. -/
def total (f : ℝ → ℝ) (x : ℝ) : Option ℝ := some (f x)

/-- `convertFunctions`, UnitConversion.cpp:29-64. -/
noncomputable def convertFunctions : List (ℝ → Option ℝ) := [
  total convertNothing,
  total convertUnitToMicro,
  total convertUnitToMilli,
  total convertUnitToKilo,
  total convertUnitToMega,
  total convertFracToPercent,
  total convertUnitPerSecToUnitPerHour,
  total convertDegFToDegR,
  total convertDegFToDegC,
  total convertDegFToDegK,
  total convertDegRToDegF,
  total convertDegRToDegC,
  total convertDegRToDegK,
  total convertDegCToDegF,
  total convertDegCToDegR,
  total convertDegCToDegK,
  total convertDegKToDegC,
  total convertDegKToDegF,
  total convertDegKToDegR,
  total convertKpaToPsi,
  total convertKpaToMmhg,
  total convertKpaToMilliTorr,
  total convertKpaToInh2o,
  total convertPsiToKpa,
  total convertKgPerSecToLbmPerHour,
  total convertKgPerSecToScfm0C,
  total convertLbmPerHourToKgPerSec,
  convertPrToDb,
  total convertDbToPr,
  total convertWToDbw,
  total convertRadToDeg,
  total convertDegToRad,
  total convertRadPerSecToRpm,
  total convertRpmtoRadPerSec]

/-- What `convert` does: a value, an exception, or a read beyond the table. -/
inductive Result
  /-- The converted value. -/
  | value (x : ℝ)
  /-- An exception. -/
  | error
  /-- A read beyond the table, which is undefined. -/
  | undefined

/-- `NUM_CONVERSIONS`, UnitConversion.hh:94: the number of the types. -/
def numConversions : ℤ := 34

/-- `convert`, UnitConversion.cpp:1330-1345, on the number of the type. -/
noncomputable def convert (type : ℤ) (input : ℝ) : Result :=
  if type < 0 ∨ type ≥ numConversions then .error
  else match convertFunctions[type.toNat]? with
    | none => .undefined
    | some f => match f input with
      | none => .error
      | some x => .value x

end Gunns.Units
