import Verif.Units.Conversion

/-!
# The older unit conversions

The functions and the ratios of units of ms-utils/units/TS_conversions.c.  Doubles are real numbers; the
constants are those written in the source.
-/

namespace Gunns.Units

open Real

/-- `TS_SEC_PER_DAY`, TS_conversions.c:46. -/
def tsSecPerDay : ℚ := 86400.0

/-- `TS_SEC_PER_HR`, TS_conversions.c:47. -/
def tsSecPerHr : ℚ := 3600.0

/-- `TS_MIN_PER_HR`, TS_conversions.c:48. -/
def tsMinPerHr : ℚ := 60.0

/-- `TS_SEC_PER_MIN`, TS_conversions.c:49. -/
def tsSecPerMin : ℚ := 60.0

/-- `TS_DAY_PER_SEC`, TS_conversions.c:51. -/
def tsDayPerSec : ℚ := 0.000011574

/-- `TS_HR_PER_SEC`, TS_conversions.c:52. -/
def tsHrPerSec : ℚ := 0.00027777778

/-- `TS_HR_PER_MIN`, TS_conversions.c:53. -/
def tsHrPerMin : ℚ := 0.01666666667

/-- `TS_HR_PER_DAY`, TS_conversions.c:54. -/
def tsHrPerDay : ℚ := 24.0

/-- `TS_MIN_PER_SEC`, TS_conversions.c:55. -/
def tsMinPerSec : ℚ := 0.01666666667

/-- `TS_LEAP_YEAR_SEC`, TS_conversions.c:65. -/
def tsLeapYearSec : ℚ := 31622400.0

/-- `TS_COMMON_YEAR_SEC`, TS_conversions.c:66. -/
def tsCommonYearSec : ℚ := 31536000.0

/-- `TS_SEC_PER_MSEC`, TS_conversions.c:68. -/
def tsSecPerMsec : ℚ := 1.0e3

/-- `TS_MSEC_PER_SEC`, TS_conversions.c:69. -/
def tsMsecPerSec : ℚ := 1.0e-3

/-- `TS_HZ_PER_MHZ`, TS_conversions.c:74. -/
def tsHzPerMhz : ℚ := 1.0e6

/-- `TS_MHZ_PER_HZ`, TS_conversions.c:75. -/
def tsMhzPerHz : ℚ := 1.0e-6

/-- `TS_IN_PER_FT`, TS_conversions.c:80. -/
def tsInPerFt : ℚ := 12.0

/-- `TS_FT_PER_IN`, TS_conversions.c:81. -/
def tsFtPerIn : ℚ := 0.08333333333333

/-- `TS_FT_PER_YD`, TS_conversions.c:83. -/
def tsFtPerYd : ℚ := 3.0

/-- `TS_YD_PER_FT`, TS_conversions.c:84. -/
def tsYdPerFt : ℚ := 0.33333333333333

/-- `TS_CM_PER_IN`, TS_conversions.c:86. -/
def tsCmPerIn : ℚ := 2.54

/-- `TS_IN_PER_CM`, TS_conversions.c:87. -/
def tsInPerCm : ℚ := 0.3937007874016

/-- `TS_M_PER_IN`, TS_conversions.c:89. -/
def tsMPerIn : ℚ := 0.0254

/-- `TS_IN_PER_M`, TS_conversions.c:90. -/
def tsInPerM : ℚ := 39.37007874

/-- `TS_FT_PER_M`, TS_conversions.c:92. -/
def tsFtPerM : ℚ := 3.280839895013

/-- `TS_M_PER_FT`, TS_conversions.c:93. -/
def tsMPerFt : ℚ := 0.3048

/-- `TS_FT_PER_MI`, TS_conversions.c:95. -/
def tsFtPerMi : ℚ := 5280.0

/-- `TS_MI_PER_FT`, TS_conversions.c:96. -/
def tsMiPerFt : ℚ := 0.000189394

/-- `TS_FT_PER_NMI`, TS_conversions.c:98. -/
def tsFtPerNmi : ℚ := 6076.115

/-- `TS_NMI_PER_FT`, TS_conversions.c:99. -/
def tsNmiPerFt : ℚ := 0.000164579

/-- `TS_M_PER_KM`, TS_conversions.c:101. -/
def tsMPerKm : ℚ := 1000.0

/-- `TS_KM_PER_M`, TS_conversions.c:102. -/
def tsKmPerM : ℚ := 0.001

/-- `TS_IN2_PER_FT2`, TS_conversions.c:107. -/
def tsIn2PerFt2 : ℚ := 144.0

/-- `TS_FT2_PER_IN2`, TS_conversions.c:108. -/
def tsFt2PerIn2 : ℚ := 0.006944444444445

/-- `TS_IN2_PER_M2`, TS_conversions.c:110. -/
def tsIn2PerM2 : ℚ := 1550.003100006

/-- `TS_M2_PER_IN2`, TS_conversions.c:111. -/
def tsM2PerIn2 : ℚ := 0.00064516

/-- `TS_FT2_PER_M2`, TS_conversions.c:113. -/
def tsFt2PerM2 : ℚ := 10.76391041671

/-- `TS_M2_PER_FT2`, TS_conversions.c:114. -/
def tsM2PerFt2 : ℚ := 0.09290304

/-- `TS_IN3_PER_FT3`, TS_conversions.c:119. -/
def tsIn3PerFt3 : ℚ := 1728.0

/-- `TS_FT3_PER_IN3`, TS_conversions.c:120. -/
def tsFt3PerIn3 : ℚ := 0.000578703704

/-- `TS_IN3_PER_M3`, TS_conversions.c:122. -/
def tsIn3PerM3 : ℚ := 61023.7441

/-- `TS_M3_PER_IN3`, TS_conversions.c:123. -/
def tsM3PerIn3 : ℚ := 1.6387064e-5

/-- `TS_FT3_PER_M3`, TS_conversions.c:125. -/
def tsFt3PerM3 : ℚ := 35.3146667

/-- `TS_M3_PER_FT3`, TS_conversions.c:126. -/
def tsM3PerFt3 : ℚ := 0.0283168466

/-- `TS_PA_PER_PSI`, TS_conversions.c:131. -/
def tsPaPerPsi : ℚ := 6894.75

/-- `TS_PSI_PER_PA`, TS_conversions.c:132. -/
def tsPsiPerPa : ℚ := 0.0001450378911491

/-- `TS_TORR_PER_PSI`, TS_conversions.c:134. -/
def tsTorrPerPsi : ℚ := 51.71487786825

/-- `TS_PSI_PER_TORR`, TS_conversions.c:135. -/
def tsPsiPerTorr : ℚ := 0.01933679515879

/-- `TS_ATM_PER_PSI`, TS_conversions.c:137. -/
def tsAtmPerPsi : ℚ := 0.0680458919319

/-- `TS_PSI_PER_ATM`, TS_conversions.c:138. -/
def tsPsiPerAtm : ℚ := 14.69596432068

/-- `TS_PA_PER_ATM`, TS_conversions.c:140. -/
def tsPaPerAtm : ℚ := 101325.0

/-- `TS_ATM_PER_PA`, TS_conversions.c:141. -/
def tsAtmPerPa : ℚ := 9.869232667e-6

/-- `TS_MMHG_PER_PSI`, TS_conversions.c:143. -/
def tsMmhgPerPsi : ℚ := 51.7

/-- `TS_KG_PER_LBM`, TS_conversions.c:148. -/
def tsKgPerLbm : ℚ := 0.45359237

/-- `TS_G_PER_LBM`, TS_conversions.c:149. -/
def tsGPerLbm : ℚ := 453.59237

/-- `TS_LBM_PER_KG`, TS_conversions.c:150. -/
def tsLbmPerKg : ℚ := 2.204622621849

/-- `TS_LBM_PER_G`, TS_conversions.c:151. -/
def tsLbmPerG : ℚ := 0.002204622621849

/-- `TS_KG_PER_SEC_PER_LBM_PER_HR`, TS_conversions.c:156. -/
def tsKgPerSecPerLbmPerHr : ℚ := 0.000125998

/-- `TS_LBM_PER_HR_PER_KG_PER_SEC`, TS_conversions.c:157. -/
def tsLbmPerHrPerKgPerSec : ℚ := 7936.633915

/-- `TS_KG_PER_SEC_PER_LBM_PER_SEC`, TS_conversions.c:159. -/
def tsKgPerSecPerLbmPerSec : ℚ := 0.45359237002

/-- `TS_LBM_PER_SEC_PER_KG_PER_SEC`, TS_conversions.c:160. -/
def tsLbmPerSecPerKgPerSec : ℚ := 2.2046226217

/-- `TS_BTU_PER_J`, TS_conversions.c:165. -/
def tsBtuPerJ : ℚ := 0.00094781712

/-- `TS_J_PER_BTU`, TS_conversions.c:166. -/
def tsJPerBtu : ℚ := 1055.05585

/-- `TS_KJ_PER_BTU`, TS_conversions.c:167. -/
def tsKjPerBtu : ℚ := 1.05505585

/-- `TS_BTU_PER_KJ`, TS_conversions.c:168. -/
def tsBtuPerKj : ℚ := 0.9478171227

/-- `TS_BTU_PER_W_S`, TS_conversions.c:174. -/
def tsBtuPerWS : ℚ := 0.0009478169879134

/-- `TS_W_S_PER_BTU`, TS_conversions.c:175. -/
def tsWSPerBtu : ℚ := 1055.056

/-- `TS_BTU_PER_HR_PER_W`, TS_conversions.c:176. -/
def tsBtuPerHrPerW : ℚ := 3.4144

/-- `TS_W_PER_BTU_PER_HR`, TS_conversions.c:177. -/
def tsWPerBtuPerHr : ℚ := 0.2928

/-- `TS_BTU_PER_HR_PER_KW`, TS_conversions.c:178. -/
def tsBtuPerHrPerKw : ℚ := 3414.426

/-- `TS_KW_PER_BTU_PER_HR`, TS_conversions.c:179. -/
def tsKwPerBtuPerHr : ℚ := 0.00029287

/-- `TS_F_PER_C`, TS_conversions.c:185. -/
def tsFPerC : ℚ := 1.8

/-- `TS_C_PER_F`, TS_conversions.c:186. -/
def tsCPerF : ℚ := 0.5555555555556

/-- `TS_convert_degF_to_degR`, TS_conversions.c:280-284. -/
noncomputable def tsConvertFToR (t : ℝ) : ℝ := 459.67 + t

/-- `TS_convert_degF_to_degC`, TS_conversions.c:286-290. -/
noncomputable def tsConvertFToC (t : ℝ) : ℝ := (t - 32) * 5 / 9

/-- `TS_convert_degF_to_degK`, TS_conversions.c:292-296. -/
noncomputable def tsConvertFToK (t : ℝ) : ℝ := (t + 459.67) * 5 / 9

/-- `TS_convert_degR_to_degF`, TS_conversions.c:301-305. -/
noncomputable def tsConvertRToF (t : ℝ) : ℝ := t - 459.67

/-- `TS_convert_degR_to_degC`, TS_conversions.c:307-311. -/
noncomputable def tsConvertRToC (t : ℝ) : ℝ := (t - 459.67) * 5 / 9

/-- `TS_convert_degR_to_degK`, TS_conversions.c:313-317. -/
noncomputable def tsConvertRToK (t : ℝ) : ℝ := t * 5 / 9

/-- `TS_convert_degC_to_degF`, TS_conversions.c:322-326. -/
noncomputable def tsConvertCToF (t : ℝ) : ℝ := t * 9 / 5 + 32

/-- `TS_convert_degC_to_degR`, TS_conversions.c:328-332. -/
noncomputable def tsConvertCToR (t : ℝ) : ℝ := (t + 273.15) * 9 / 5

/-- `TS_convert_degC_to_degK`, TS_conversions.c:334-338. -/
noncomputable def tsConvertCToK (t : ℝ) : ℝ := t + 273.15

/-- `TS_convert_degK_to_degC`, TS_conversions.c:343-347. -/
noncomputable def tsConvertKToC (t : ℝ) : ℝ := t - 273.15

/-- `TS_convert_degK_to_degF`, TS_conversions.c:349-353. -/
noncomputable def tsConvertKToF (t : ℝ) : ℝ := t * 9 / 5 - 459.67

/-- `TS_convert_degK_to_degR`, TS_conversions.c:355-359. -/
noncomputable def tsConvertKToR (t : ℝ) : ℝ := t * 9 / 5

/-- `TS_convert_PR_to_dB`, TS_conversions.c:369-373; of a ratio that is not positive the logarithm is not a number,
or minus infinity: `none`. -/
noncomputable def tsConvertPrToDb (pratio : ℝ) : Option ℝ := if pratio ≤ 0 then none else some (10 * logb 10 pratio)

/-- `TS_convert_dB_to_PR`, TS_conversions.c:378-382. -/
noncomputable def tsConvertDbToPr (db : ℝ) : ℝ := (10 : ℝ) ^ (db / 10)

/-- `TS_convert_W_to_dBW`, TS_conversions.c:387-402. -/
noncomputable def tsConvertWToDbw (power : ℝ) : ℝ :=
  if power > 0 then 10 * logb 10 power else 0

end Gunns.Units
