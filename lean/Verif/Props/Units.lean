import Verif.Units.Spec
import Mathlib.Tactic.Linarith
import Mathlib.Tactic.FieldSimp
import Mathlib.Tactic.Ring

/-!
# C61: Unit conversions convert units

The units are given by their definitions (`Verif.Units.Spec`).
-/

set_option linter.unusedSimpArgs false

namespace Gunns.Props

open Gunns.Units Real

/-- **C61, dispatch.**  A number that is not that of a type throws; and that of a type never reads beyond the
table, and throws only for decibels of a ratio below DBL_EPSILON. -/
theorem c61_dispatch :
    (∀ n x, (¬ ∃ k : Kind, k.number = n) → convert n x = .error) ∧
    (∀ (k : Kind) x, convert k.number x = .error ↔ k = .prToDb ∧ x < 1 / 2 ^ 52) ∧
    (∀ (k : Kind) x, convert k.number x ≠ .undefined) := by
  refine ⟨fun n x h => ?_, fun k x => ?_, fun k x => ?_⟩
  · unfold convert
    by_cases hn : n < 0 ∨ n ≥ numConversions
    · rw [if_pos hn]
    · exfalso
      apply h
      push Not at hn
      obtain ⟨h0, h1⟩ := hn
      unfold numConversions at h1
      obtain ⟨m, rfl⟩ := Int.eq_ofNat_of_zero_le h0
      have hm : m < 34 := by exact_mod_cast h1
      clear h h0 h1
      have key : ∀ m : Fin 34, ∃ k : Kind, k.ctorIdx = m.1 := by
        intro m
        match m with
        | 0 => exact ⟨.noConversion, rfl⟩
        | 1 => exact ⟨.unitToMicro, rfl⟩
        | 2 => exact ⟨.unitToMilli, rfl⟩
        | 3 => exact ⟨.unitToKilo, rfl⟩
        | 4 => exact ⟨.unitToMega, rfl⟩
        | 5 => exact ⟨.fracToPercent, rfl⟩
        | 6 => exact ⟨.unitPerSecToUnitPerHour, rfl⟩
        | 7 => exact ⟨.fToR, rfl⟩
        | 8 => exact ⟨.fToC, rfl⟩
        | 9 => exact ⟨.fToK, rfl⟩
        | 10 => exact ⟨.rToF, rfl⟩
        | 11 => exact ⟨.rToC, rfl⟩
        | 12 => exact ⟨.rToK, rfl⟩
        | 13 => exact ⟨.cToF, rfl⟩
        | 14 => exact ⟨.cToR, rfl⟩
        | 15 => exact ⟨.cToK, rfl⟩
        | 16 => exact ⟨.kToC, rfl⟩
        | 17 => exact ⟨.kToF, rfl⟩
        | 18 => exact ⟨.kToR, rfl⟩
        | 19 => exact ⟨.kpaToPsi, rfl⟩
        | 20 => exact ⟨.kpaToMmhg, rfl⟩
        | 21 => exact ⟨.kpaToMillitorr, rfl⟩
        | 22 => exact ⟨.kpaToInh2o, rfl⟩
        | 23 => exact ⟨.psiToKpa, rfl⟩
        | 24 => exact ⟨.kgPerSecToLbmPerHour, rfl⟩
        | 25 => exact ⟨.kgPerSecToScfm0c, rfl⟩
        | 26 => exact ⟨.lbmPerHourToKgPerSec, rfl⟩
        | 27 => exact ⟨.prToDb, rfl⟩
        | 28 => exact ⟨.dbToPr, rfl⟩
        | 29 => exact ⟨.wToDbw, rfl⟩
        | 30 => exact ⟨.radToDeg, rfl⟩
        | 31 => exact ⟨.degToRad, rfl⟩
        | 32 => exact ⟨.radpersecToRpm, rfl⟩
        | 33 => exact ⟨.rpmToRadpersec, rfl⟩
        | ⟨n + 34, h⟩ => exact absurd h (by omega)
      obtain ⟨k, hk⟩ := key ⟨m, hm⟩
      exact ⟨k, by unfold Kind.number; rw [hk]⟩
  · by_cases hk : k = .prToDb
    · subst hk
      have e : convert (Kind.prToDb).number x = match convertPrToDb x with
        | none => .error
        | some x => .value x := rfl
      rw [e]
      unfold convertPrToDb dblEps
      by_cases hx : x < 1 / 2 ^ 52
      · rw [if_pos hx]
        exact ⟨fun _ => ⟨rfl, hx⟩, fun _ => rfl⟩
      · rw [if_neg hx]
        exact ⟨(fun h => by cases h), fun h => absurd h.2 hx⟩
    · constructor
      · intro h
        exfalso
        cases k <;> first | exact hk rfl | (simp [convert, convertFunctions, Kind.number, Kind.ctorIdx, numConversions, total] at h)
      · intro h
        exact absurd h.1 hk
  · by_cases hk : k = .prToDb
    · subst hk
      have e : convert (Kind.prToDb).number x = match convertPrToDb x with
        | none => .error
        | some x => .value x := rfl
      rw [e]
      cases convertPrToDb x <;> simp
    · cases k <;> first | exact absurd rfl hk | (simp [convert, convertFunctions, Kind.number, Kind.ctorIdx, numConversions, total])

example : convert 34 1 = .error ∧ convert (-1) 1 = .error :=
  ⟨rfl, rfl⟩

/-- A factor that is right within a relative error. -/
private theorem factor_ok {a b c tol : ℝ} (h : |b * c - a| ≤ tol * |a|) {x y : ℝ} (hy : y = x * c) :
    |(plain b).amount y - (plain a).amount x| ≤ tol * |(plain a).amount x| := by
  have e : (plain b).amount y - (plain a).amount x = x * (b * c - a) := by
    unfold Measure.amount plain
    rw [hy]
    ring
  have e2 : (plain a).amount x = x * a := by
    unfold Measure.amount plain
    ring
  rw [e, e2, abs_mul, abs_mul]
  calc |x| * |b * c - a| ≤ |x| * (tol * |a|) := mul_le_mul_of_nonneg_left h (abs_nonneg x)
    _ = tol * (|x| * |a|) := by ring

/-- An exact conversion of scales. -/
private theorem exact_ok {a b : Measure} {x y : ℝ} (h : b.amount y = a.amount x) :
    |b.amount y - a.amount x| ≤ 0 * |a.amount x| := by
  rw [h, sub_self, abs_zero, zero_mul]

/-- **C61, units.**  Each type but those of decibels converts a value to the value of the same quantity in the
other unit: exactly for the prefixes, temperatures and angles, and within the relative error of the factor, at
most 3e-7 (2e-3 for the standard cubic feet, which are those of air), for the others. -/
theorem c61_units (k : Kind) (a b : Measure) (tol : ℝ) (h : k.measures = some (a, b, tol)) (x : ℝ) :
    ∃ y, convert k.number x = .value y ∧ |b.amount y - a.amount x| ≤ tol * |a.amount x| := by
  have pi0 : (π : ℝ) ≠ 0 := pi_ne_zero
  cases k <;>
    first
    | (simp only [Kind.measures, reduceCtorEq] at h; done)
    | (simp only [Kind.measures, Option.some.injEq, Prod.mk.injEq] at h
       obtain ⟨rfl, rfl, rfl⟩ := h
       refine ⟨_, rfl, ?_⟩)
  all_goals
    first
    | (refine exact_ok ?_
       simp only [Measure.amount, plain, celsius, fahrenheit, kelvin, rankine, thermo, convertNothing,
         convertUnitToMicro, convertUnitToMilli, convertUnitToKilo, convertUnitToMega, convertFracToPercent,
         convertUnitPerSecToUnitPerHour, convertDegFToDegR, convertDegFToDegC, convertDegFToDegK,
         convertDegRToDegF, convertDegRToDegC, convertDegRToDegK, convertDegCToDegF, convertDegCToDegR,
         convertDegCToDegK, convertDegKToDegC, convertDegKToDegF, convertDegKToDegR, convertKpaToInh2o,
         convertRadToDeg, convertDegToRad, convertRadPerSecToRpm, convertRpmtoRadPerSec, unitPerMega,
         milliPerUnit, kiloPerUnit, megaPerUnit, percentage, secPerHr, zeroFInR, zeroCInF, zeroCInK, fPerC,
         cPerF, unitPerMilli, inPerM, mPerIn, kpaPerMmh2o, radPerDeg, secPerMinPer2Pi, secPerMin, hour, minute,
         inchWater, gravity, inch, foot]
       push_cast
       first
       | (norm_num; done)
       | (norm_num; ring; done)
       | (norm_num; linarith)
       | (norm_num; field_simp))
    | skip
  · exact exact_ok rfl
  · refine factor_ok (c := (psiPerKpa : ℝ)) ?_ rfl
    norm_num [psiPerKpa, kpaPerPsi, paPerPsi, kiloPerUnit, psi, pound, gravity, inch, foot, abs_le]
  · refine factor_ok (c := 1 / (kpaPerMmhg : ℝ)) ?_ (div_eq_mul_one_div _ _)
    norm_num [kpaPerMmhg, mmHg, gravity, abs_le]
  · refine factor_ok (c := (torrPerKpa : ℝ) * (milliPerUnit : ℝ)) ?_ (mul_assoc _ _ _)
    norm_num [torrPerKpa, torrPerPsi, milliPerUnit, psiPerKpa, kpaPerPsi, paPerPsi, kiloPerUnit, torr, abs_le]
  · refine factor_ok (c := (kpaPerPsi : ℝ)) ?_ rfl
    norm_num [kpaPerPsi, paPerPsi, kiloPerUnit, psi, pound, gravity, inch, foot, abs_le]
  · refine factor_ok (c := (lbmPerHrPerKgPerSec : ℝ)) ?_ rfl
    norm_num [lbmPerHrPerKgPerSec, kgPerSecPerLbmPerHr, secPerHr, pound, hour, minute, abs_le]
  · refine factor_ok (c := (scfm0cPerKgPerSec : ℝ)) ?_ rfl
    norm_num [scfm0cPerKgPerSec, scfm, foot, minute, abs_le]
  · refine factor_ok (c := (kgPerSecPerLbmPerHr : ℝ)) ?_ rfl
    norm_num [kgPerSecPerLbmPerHr, secPerHr, pound, hour, minute, abs_le]

example : ∃ y, convert (Kind.fToC).number 212 = .value y ∧ y = 100 := by
  refine ⟨_, rfl, ?_⟩
  norm_num [convertDegFToDegC, zeroCInF, cPerF, fPerC]

/-- **C61, the way back.**  A type and the one that converts back undo each other exactly. -/
theorem c61_back (k l : Kind) (h : k.back = some l) (x : ℝ) :
    ∃ y, convert k.number x = .value y ∧ convert l.number y = .value x := by
  have pi0 : (π : ℝ) ≠ 0 := pi_ne_zero
  cases k <;> first | (cases h; done) | (injection h with h; subst h; refine ⟨_, rfl, congrArg Result.value ?_⟩)
  all_goals
    first
    | rfl
    | (simp only [convertDegFToDegR, convertDegFToDegC, convertDegFToDegK,
         convertDegRToDegF, convertDegRToDegC, convertDegRToDegK, convertDegCToDegF, convertDegCToDegR,
         convertDegCToDegK, convertDegKToDegC, convertDegKToDegF, convertDegKToDegR, convertKpaToPsi,
         convertPsiToKpa, convertKgPerSecToLbmPerHour, convertLbmPerHourToKgPerSec, psiPerKpa, kpaPerPsi,
         paPerPsi, kiloPerUnit, lbmPerHrPerKgPerSec, kgPerSecPerLbmPerHr, secPerHr,
         convertRadToDeg, convertDegToRad, convertRadPerSecToRpm, convertRpmtoRadPerSec, zeroFInR, zeroCInF,
         zeroCInK, fPerC, cPerF, radPerDeg, secPerMinPer2Pi, secPerMin]
       push_cast
       first
       | (norm_num; done)
       | (norm_num; ring))

/-- **C61, paths.**  From one scale of temperature to another it does not matter which way is taken. -/
theorem c61_paths (a b e : Scale) (x : ℝ) :
    ∃ y z, convert (between a b).number x = .value y ∧ convert (between b e).number y = .value z ∧
      convert (between a e).number x = .value z := by
  cases a <;> cases b <;> cases e <;> refine ⟨_, _, rfl, rfl, congrArg Result.value ?_⟩
  all_goals
    first
    | rfl
    | (simp only [convertNothing, convertDegFToDegR, convertDegFToDegC, convertDegFToDegK,
         convertDegRToDegF, convertDegRToDegC, convertDegRToDegK, convertDegCToDegF, convertDegCToDegR,
         convertDegCToDegK, convertDegKToDegC, convertDegKToDegF, convertDegKToDegR, zeroFInR, zeroCInF,
         zeroCInK, fPerC, cPerF]
       push_cast
       first
       | (norm_num; done)
       | (norm_num; ring))

/-- **C61, decibels.**  The decibels of a ratio from DBL_EPSILON on are ten times its common logarithm, and converted
back they are the ratio; every value of decibels is that of a positive ratio; decibels of a product are the sum; and
those of a power above zero in watts are those of its ratio to one watt. -/
theorem c61_decibels :
    (∀ r : ℝ, 1 / 2 ^ 52 ≤ r → ∃ d, convert (Kind.prToDb).number r = .value d ∧ (10 : ℝ) ^ (d / 10) = r ∧
      convert (Kind.dbToPr).number d = .value r) ∧
    (∀ d : ℝ, ∃ r, convert (Kind.dbToPr).number d = .value r ∧ 0 < r ∧
      (1 / 2 ^ 52 ≤ r → convert (Kind.prToDb).number r = .value d)) ∧
    (∀ r s d e : ℝ, 1 / 2 ^ 52 ≤ r * s → convert (Kind.prToDb).number r = .value d →
      convert (Kind.prToDb).number s = .value e → convert (Kind.prToDb).number (r * s) = .value (d + e)) ∧
    (∀ p : ℝ, 0 < p → ∃ d, convert (Kind.wToDbw).number p = .value d ∧ (10 : ℝ) ^ (d / 10) = p) := by
  have ten : (0 : ℝ) < 10 := by norm_num
  have ten1 : (10 : ℝ) ≠ 1 := by norm_num
  have eps : (0 : ℝ) < 1 / 2 ^ 52 := by positivity
  have db : ∀ r : ℝ, 1 / 2 ^ 52 ≤ r → convert (Kind.prToDb).number r = .value (10 * logb 10 r) := by
    intro r h
    have e : convert (Kind.prToDb).number r = match convertPrToDb r with
      | none => .error
      | some x => .value x := rfl
    rw [e]
    unfold convertPrToDb dblEps
    rw [if_neg (not_lt.2 h)]
  have small : ∀ r d : ℝ, convert (Kind.prToDb).number r = .value d → 1 / 2 ^ 52 ≤ r := by
    intro r d h
    by_contra c
    have := (c61_dispatch.2.1 .prToDb r).2 ⟨rfl, not_le.1 c⟩
    rw [this] at h
    cases h
  have pow : ∀ r : ℝ, 0 < r → (10 : ℝ) ^ (10 * logb 10 r / 10) = r := by
    intro r h
    rw [mul_div_cancel_left₀ _ ten.ne', rpow_logb ten ten1 h]
  have back : ∀ d : ℝ, convert (Kind.dbToPr).number d = .value ((10 : ℝ) ^ (d / 10)) := by
    intro d
    have e : convert (Kind.dbToPr).number d = .value (convertDbToPr d) := rfl
    rw [e]
    unfold convertDbToPr
    congr 2
    norm_num
    ring
  refine ⟨fun r h => ⟨_, db r h, pow r (eps.trans_le h), ?_⟩, fun d => ⟨_, back d, rpow_pos_of_pos ten _, fun h => ?_⟩,
    fun r s d e h hd he => ?_, fun p h => ⟨10 * logb 10 p, ?_, pow p h⟩⟩
  · rw [back, pow r (eps.trans_le h)]
  · rw [db _ h, logb_rpow ten ten1]
    congr 1
    ring
  · have hr := small r d hd
    have hs := small s e he
    rw [db r hr] at hd
    rw [db s hs] at he
    rw [db _ h, logb_mul (eps.trans_le hr).ne' (eps.trans_le hs).ne', ← Result.value.inj hd, ← Result.value.inj he,
      mul_add]
  · have e : convert (Kind.wToDbw).number p = .value (convertWToDbw p) := rfl
    rw [e]
    unfold convertWToDbw
    rw [if_pos h]

/-- **C61, percent.**  A part of a basis in percent and back. -/
theorem c61_percent (x basis : ℝ) (h : basis ≠ 0) :
    convertFromPercent (convertToPercent x (1 / basis)) basis = x ∧ convertToPercent basis (1 / basis) = 100 := by
  unfold convertFromPercent convertToPercent
  constructor
  · field_simp
    ring
  · field_simp

/-- **C61, no power.**  In decibel watts, no power and negative power show the zero of one watt; so half a watt shows
less than none. -/
theorem c61_no_power :
    (∀ p : ℝ, p ≤ 0 → convert (Kind.wToDbw).number p = convert (Kind.wToDbw).number 1) ∧
    ∃ d, convert (Kind.wToDbw).number 0.5 = .value d ∧ convert (Kind.wToDbw).number 0 = .value 0 ∧ d < 0 := by
  have e : ∀ p, convert (Kind.wToDbw).number p = .value (convertWToDbw p) := fun _ => rfl
  refine ⟨fun p h => ?_, ⟨_, e _, ?_, ?_⟩⟩
  · rw [e, e]
    unfold convertWToDbw
    rw [if_neg (not_lt.2 h), if_pos one_pos, logb_one, mul_zero]
  · rw [e]
    unfold convertWToDbw
    rw [if_neg (lt_irrefl 0)]
  · unfold convertWToDbw
    rw [if_pos (by norm_num)]
    have := logb_neg (b := 10) (x := 0.5) (by norm_num) (by norm_num) (by norm_num)
    linarith

/-- **C61, the ratios.**  A constant of `UnitConversion` that is named X_PER_Y is the number of X in a Y, within
3e-7 of it; one of TS_conversions.c within a thousandth. -/
theorem c61_ratios :
    (∀ r ∈ ratios, abs (r.1 * r.2.1 - r.2.2) ≤ 3e-7 * r.2.2) ∧
    (∀ r ∈ tsRatios, abs (r.1 * r.2.1 - r.2.2) ≤ 1e-3 * r.2.2) := by
  constructor <;> decide +kernel

/-- **C61, three ratios upside down.**  The constants of milliseconds have each other's values, and that of
horsepower is the number of foot pounds a minute in a horsepower. -/
theorem c61_upside_down :
    secPerMsec * (1 / 1000) = 1 ∧ msecPerSec * 1000 = 1 ∧ tsSecPerMsec * (1 / 1000) = 1 ∧ tsMsecPerSec * 1000 = 1 ∧
    hpPerFtlbfOverMin * (foot * pound * gravity / minute) = 550 * (foot * pound * gravity) := by
  decide +kernel

/-- **C61, the older functions.**  Those of TS_conversions.c are the same conversions, but one. -/
theorem c61_older :
    tsConvertFToR = convertDegFToDegR ∧ tsConvertFToC = convertDegFToDegC ∧ tsConvertFToK = convertDegFToDegK ∧
    tsConvertRToF = convertDegRToDegF ∧ tsConvertRToK = convertDegRToDegK ∧ tsConvertCToF = convertDegCToDegF ∧
    tsConvertCToR = convertDegCToDegR ∧ tsConvertCToK = convertDegCToDegK ∧ tsConvertKToC = convertDegKToDegC ∧
    tsConvertKToF = convertDegKToDegF ∧ tsConvertKToR = convertDegKToDegR ∧ tsConvertDbToPr = convertDbToPr ∧
    tsConvertWToDbw = convertWToDbw ∧ ∀ r, 1 / 2 ^ 52 ≤ r → tsConvertPrToDb r = convertPrToDb r := by
  refine ⟨?_, ?_, ?_, ?_, ?_, ?_, ?_, ?_, ?_, ?_, ?_, ?_, ?_, fun r h => ?_⟩
  case refine_14 =>
    unfold tsConvertPrToDb convertPrToDb dblEps
    rw [if_neg (not_lt.2 h), if_neg (not_le.2 (lt_of_lt_of_le (by positivity) h))]
  all_goals
    funext x
    first
    | rfl
    | (simp only [tsConvertFToR, tsConvertFToC, tsConvertFToK, tsConvertRToF, tsConvertRToK, tsConvertCToF,
         tsConvertCToR, tsConvertCToK, tsConvertKToC, tsConvertKToF, tsConvertKToR, convertDegFToDegR,
         convertDegFToDegC, convertDegFToDegK, convertDegRToDegF, convertDegRToDegK, convertDegCToDegF,
         convertDegCToDegR, convertDegCToDegK, convertDegKToDegC, convertDegKToDegF, convertDegKToDegR,
         tsConvertDbToPr, convertDbToPr, zeroFInR, zeroCInF, zeroCInK, fPerC, cPerF]
       push_cast
       first
       | (norm_num; done)
       | (norm_num; ring))

/-- **C61, the older conversion of Rankine to Celsius is wrong**: by 160/9 degrees.  Ice melts at 491.67 degrees
Rankine, which it converts to nearly 18 degrees Celsius. -/
theorem c61_rankine (t : ℝ) :
    tsConvertRToC t = convertDegRToDegC t + 160 / 9 ∧
    celsius.amount (tsConvertRToC t) = rankine.amount t + 8 / 45 := by
  constructor
  · norm_num [tsConvertRToC, convertDegRToDegC, cPerF, fPerC, zeroCInK]
    ring
  · norm_num [tsConvertRToC, celsius, rankine, thermo, Measure.amount]
    ring

end Gunns.Props
