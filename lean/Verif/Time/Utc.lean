import Mathlib.Algebra.Order.Floor.Ring
import Mathlib.Data.Nat.Digits.Defs
import Verif.Base.Loop

/-!
# Calendar time

The UTC and SGMT conversions of ms-utils/units/TS_sgmt_conversion.c, with the constants of
ms-utils/units/TS_conversions.c.

Simplifications: doubles are elements of an ordered field with a floor, so there is no rounding, no overflow
and no NaN.  Integers are unbounded, except in the one conversion from a double to an `int`
(`castInt`), whose overflow is undefined and is the outcome `none`.  `TS_YES` and `TS_TRUE` are taken as
`true`, and `TS_NO` and `TS_FALSE` as `false`; the header which defines them is not in the repository.
-/

namespace Gunns.Time

variable {K : Type _} [Field K] [LinearOrder K] [IsStrictOrderedRing K] [FloorRing K]

/-- `TS_TIME_UTC_S_TYPE`, TS_sgmt_conversion.h:52-61. -/
structure Utc (K : Type _) where
  /-- `year` -/
  year : ℤ
  /-- `month`, 1 to 12 -/
  month : ℤ
  /-- `day`, 1 to 31 -/
  day : ℤ
  /-- `hour`, 0 to 23 -/
  hour : ℤ
  /-- `minute`, 0 to 59 -/
  minute : ℤ
  /-- `second` -/
  second : K

/-- `TS_SEC_PER_DAY`, TS_conversions.c:46. -/
def secPerDay : ℤ := 86400

/-- `TS_SEC_PER_HR`, TS_conversions.c:47. -/
def secPerHr : ℤ := 3600

/-- `TS_MIN_PER_HR`, TS_conversions.c:48. -/
def minPerHr : ℤ := 60

/-- `TS_SEC_PER_MIN`, TS_conversions.c:49. -/
def secPerMin : ℤ := 60

/-- `TS_HR_PER_DAY`, TS_conversions.c:54. -/
def hrPerDay : ℤ := 24

/-- `TS_LEAP_YEAR_SEC`, TS_conversions.c:65. -/
def leapYearSec : ℤ := 31622400

/-- `TS_COMMON_YEAR_SEC`, TS_conversions.c:66. -/
def commonYearSec : ℤ := 31536000

/-- `TS_is_leap_year`, TS_sgmt_conversion.c:232-246; `%` of C is `Int.tmod`. -/
def isLeapYear (year : ℤ) : Bool :=
  (!(year.tmod 4 != 0) && year.tmod 100 != 0) || !(year.tmod 400 != 0)

/-- `TS_convert_year2second`, TS_sgmt_conversion.c:44-61: the seconds of the year. -/
def year2second (year : ℤ) : K :=
  if isLeapYear year then (leapYearSec : K) else (commonYearSec : K)

/-- `list_common`, TS_sgmt_conversion.c:79. -/
def listCommon : List ℤ := [0, 0, 31, 59, 90, 120, 151, 181, 212, 243, 273, 304, 334]

/-- `list_leap`, TS_sgmt_conversion.c:80. -/
def listLeap : List ℤ := [0, 0, 31, 60, 91, 121, 152, 182, 213, 244, 274, 305, 335]

/-- `TS_convert_month2day`, TS_sgmt_conversion.c:75-96: the days of the year before the month, zero for
what is not a month. -/
def month2day (year month : ℤ) : ℤ :=
  if month > 0 ∧ month < 13 then
    (if isLeapYear year then listLeap.getD month.toNat 0 else listCommon.getD month.toNat 0)
  else 0

/-- `TS_convert_time_sgmt2second`, TS_sgmt_conversion.c:110-123. -/
def sgmt2second (u : Utc K) : K :=
  ((month2day u.year u.month + (u.day - 1) : ℤ) : K) * (secPerDay : K) + ((u.hour * secPerHr : ℤ) : K) +
    (u.minute : K) * (secPerMin : K) + u.second

/-- A character of a time string. -/
inductive Ch where
  /-- a decimal digit -/
  | digit (d : ℕ)
  /-- `:` -/
  | colon
  /-- `-` -/
  | minus
  deriving DecidableEq

/-- The conversion `%0wd` of `sprintf` (C11 7.21.6.1): the decimal digits, padded with zeros to the width,
which counts the sign. -/
def fmt (w : ℕ) (n : ℤ) : List Ch :=
  let ds := (Nat.digits 10 n.natAbs).reverse
  let w' := if n < 0 then w - 1 else w
  (if n < 0 then [Ch.minus] else []) ++ (List.replicate (w' - ds.length) 0 ++ ds).map Ch.digit

/-- The conversion from a double to an `int`: towards zero, undefined (`none`) out of the range of `int`
(C11 6.3.1.4). -/
def castInt (x : K) : Option ℤ :=
  let n := if 0 ≤ x then ⌊x⌋ else ⌈x⌉
  if -2147483648 ≤ n ∧ n ≤ 2147483647 then some n else none

/-- `TS_convert_time_sgmt2string`, TS_sgmt_conversion.c:137-150; the conversion of the floor of the seconds to
`int` is taken to be in range. -/
def sgmt2string (u : Utc K) : List Ch :=
  fmt 3 (month2day u.year u.month + u.day) ++ [Ch.colon] ++ fmt 2 u.hour ++ [Ch.colon] ++ fmt 2 u.minute ++
    [Ch.colon] ++ fmt 2 ⌊u.second⌋

/-- `TS_SGMT_FORMAT_E_TYPE`, TS_sgmt_conversion.h:41-46, and anything else. -/
inductive Format where
  /-- `TS_SGMT_NO_COLON_FORMAT` -/
  | noColon
  /-- `TS_SGMT_COLON_FORMAT` -/
  | colon
  /-- any other value -/
  | other
  deriving DecidableEq

/-- What `TS_convert_yseconds2sgmt` leaves. -/
structure Sgmt where
  /-- the status returned -/
  status : Bool
  /-- the year left in `*year_ptr` -/
  year : ℤ
  /-- the string left in `sgmt_ptr`, `none` if it is not written -/
  text : Option (List Ch)
  deriving DecidableEq

/-- `TS_convert_yseconds2sgmt`, TS_sgmt_conversion.c:168-219; `/` of C is `Int.tdiv`. -/
def yseconds2sgmt (format : Format) (seconds : K) (year : ℤ) : Option Sgmt :=
  let ysec : K := year2second year
  let y := if seconds ≥ ysec then year + 1 else year
  let s := if seconds ≥ ysec then seconds - ysec else seconds
  (castInt (s + 1 / 2)).map fun stemp =>
    let dtemp := stemp.tdiv secPerDay
    let htemp := (stemp - dtemp * secPerDay).tdiv secPerHr
    let mtemp := (stemp - (dtemp * secPerDay + htemp * secPerHr)).tdiv minPerHr
    let second := stemp.tmod secPerMin
    match format with
    | Format.noColon => ⟨true, y, some (fmt 2 (y.tmod 100) ++ fmt 3 (dtemp + 1) ++ fmt 2 htemp ++
        fmt 2 mtemp ++ fmt 2 second)⟩
    | Format.colon => ⟨true, y, some (fmt 2 (y.tmod 100) ++ [Ch.colon] ++ fmt 3 (dtemp + 1) ++ [Ch.colon] ++
        fmt 2 htemp ++ [Ch.colon] ++ fmt 2 mtemp ++ [Ch.colon] ++ fmt 2 second)⟩
    | Format.other => ⟨false, y, none⟩

/-- The digits at the head of a string, read as a number after what has been read. -/
def atoiDigits : ℕ → List Ch → ℕ
  | n, Ch.digit d :: l => atoiDigits (n * 10 + d) l
  | n, _ => n

/-- `atoi` (C11 7.22.1.2): an optional sign and the digits at the head; zero if there are none. -/
def atoi : List Ch → ℤ
  | Ch.minus :: l => -(atoiDigits 0 l : ℤ)
  | l => (atoiDigits 0 l : ℤ)

/-- `CMN_N_HMS_TIME_SIZE`, TS_sgmt_conversion.h:35. -/
def hmsSize : ℕ := 9

/-- `TS_convert_time_string_hms2count`, TS_sgmt_conversion.c:259-285; `some none` when nothing is written to
`*count_ptr`, and `none` when the conversion to `int` overflows.  A cycle of zero is a precondition. -/
def hms2count (jobCycle : K) (hms : List Ch) : Option (Option ℤ) :=
  if hmsSize = hms.length then
    if hms.head? ≠ some Ch.minus then some none
    else (castInt ((⌊((-(atoi (hms.drop 1) * secPerHr + atoi (hms.drop 4) * minPerHr +
        atoi (hms.drop 7)) : ℤ) : K) / jobCycle⌋ : ℤ) : K)).map some
  else if hmsSize - 1 = hms.length then
    (castInt ((⌊((atoi hms * secPerHr + atoi (hms.drop 3) * minPerHr + atoi (hms.drop 6) : ℤ) : K) /
      jobCycle⌋ : ℤ) : K)).map some
  else some none

/-- `TS_START_DAY_NORM`, TS_conversions.c:62. -/
def startDayNorm : List ℤ := [0, 0, 31, 59, 90, 120, 151, 181, 212, 243, 273, 304, 334, 365]

/-- `TS_START_DAY_LEAP`, TS_conversions.c:63. -/
def startDayLeap : List ℤ := [0, 0, 31, 60, 91, 121, 152, 182, 213, 244, 274, 305, 335, 366]

/-- `TS_MIN_YEAR`, TS_conversions.c:60. -/
def minYear : ℤ := 1970

/-- `TS_MAX_YEAR`, TS_conversions.c:59. -/
def maxYear : ℤ := 2200

/-- `TS_UTC_days_in_month`, TS_sgmt_conversion.c:294-312. -/
def daysInMonth (u : Utc K) : ℤ :=
  if u.year ≥ minYear ∧ u.year ≤ maxYear ∧ u.month > 0 ∧ u.month ≤ 12 then
    let start := if isLeapYear u.year then startDayLeap else startDayNorm
    start.getD (u.month.toNat + 1) 0 - start.getD u.month.toNat 0
  else 0

/-- `TS_UTC_is_valid`, TS_sgmt_conversion.c:320-339. -/
def isValid (u : Utc K) : Bool :=
  if daysInMonth u > 0 then
    decide (u.day > 0 ∧ u.day ≤ daysInMonth u ∧ u.hour ≥ 0 ∧ u.hour < hrPerDay ∧ u.minute ≥ 0 ∧
      u.minute < minPerHr ∧ u.second ≥ 0 ∧ u.second < (secPerHr : K))
  else false

/-- `TS_UTC_subtraction`, TS_sgmt_conversion.c:349-372. -/
def subtraction (a b : Utc K) : K :=
  let secondsA := loop (fun k (s : K) => s + year2second (b.year + k)) (a.year - b.year).toNat (sgmt2second a)
  let secondsB := loop (fun k (s : K) => s + year2second (a.year + k)) (b.year - a.year).toNat (sgmt2second b)
  secondsA - secondsB

/-- `TS_UTC_addition`, TS_sgmt_conversion.c:382-397: the time to add is not read, and `hour` of the result is
never written, so it has whatever value `garbage` was there (reading it is undefined). -/
def addition (garbage : ℤ) (a : Utc K) (_delta : K) : Utc K where
  year := a.year
  month := a.month
  day := a.day
  hour := garbage
  minute := a.minute
  second := a.second

end Gunns.Time
