import Mathlib.Algebra.Order.Floor.Ring
import Verif.Time.Utc

/-!
# What a calendar is

The Gregorian calendar as a rule for the day after each day, the order of two moments, and what a string of
digits shows.  Nothing here uses the tables or the conversions of the code; only the record of a moment is
shared.
-/

namespace Gunns.Time.Spec

open Gunns.Time

/-- A Gregorian leap year: one that 4 divides, unless 100 does and 400 does not. -/
def Leap (y : ℤ) : Prop := 4 ∣ y ∧ (100 ∣ y → 400 ∣ y)

instance (y : ℤ) : Decidable (Leap y) := by unfold Leap; infer_instance

/-- The days of a year. -/
def yearDays (y : ℤ) : ℤ := if Leap y then 366 else 365

/-- The days of a month. -/
def monthDays (y m : ℤ) : ℤ :=
  if m = 2 then (if Leap y then 29 else 28)
  else if m = 4 ∨ m = 6 ∨ m = 9 ∨ m = 11 then 30 else 31

/-- A calendar date. -/
structure Date where
  /-- the year -/
  year : ℤ
  /-- the month -/
  month : ℤ
  /-- the day of the month -/
  day : ℤ
  deriving DecidableEq

/-- A date that the calendar has. -/
def Date.Proper (d : Date) : Prop :=
  1 ≤ d.month ∧ d.month ≤ 12 ∧ 1 ≤ d.day ∧ d.day ≤ monthDays d.year d.month

/-- The day after. -/
def Date.next (d : Date) : Date :=
  if d.day < monthDays d.year d.month then ⟨d.year, d.month, d.day + 1⟩
  else if d.month < 12 then ⟨d.year, d.month + 1, 1⟩ else ⟨d.year + 1, 1, 1⟩

/-- The date that many days later. -/
def Date.later (d : Date) : ℕ → Date
  | 0 => d
  | n + 1 => (d.later n).next

/-- The day of the year, counted by the calendar: so many days after the first of January. -/
def Date.IsDay (d : Date) (n : ℕ) : Prop := d = (⟨d.year, 1, 1⟩ : Date).later n

variable {K : Type _} [Field K] [LinearOrder K]

/-- The date of a moment. -/
def date (u : Utc K) : Date := ⟨u.year, u.month, u.day⟩

/-- The seconds of a moment since the midnight before. -/
def clock (u : Utc K) : K := 3600 * (u.hour : K) + 60 * (u.minute : K) + u.second

/-- A moment the calendar and the clock have, as the record documents it
(TS_sgmt_conversion.h:52-61). -/
structure Proper (u : Utc K) : Prop where
  /-- the date is one of the calendar -/
  date : (date u).Proper
  /-- hours are 0 to 23 -/
  hour : 0 ≤ u.hour ∧ u.hour ≤ 23
  /-- minutes are 0 to 59 -/
  minute : 0 ≤ u.minute ∧ u.minute ≤ 59
  /-- seconds are at least 0 and less than 60 -/
  second : 0 ≤ u.second ∧ u.second < 60

/-- One moment is before another: the first of year, month, day, hour, minute and second in which they
differ is less. -/
def Before (a b : Utc K) : Prop :=
  a.year < b.year ∨ a.year = b.year ∧ (a.month < b.month ∨ a.month = b.month ∧ (a.day < b.day ∨ a.day = b.day ∧
    (a.hour < b.hour ∨ a.hour = b.hour ∧ (a.minute < b.minute ∨ a.minute = b.minute ∧ a.second < b.second))))

/-- The number that a list of digits stands for, most significant first. -/
def valueOf (ds : List ℕ) : ℕ := ds.foldl (fun n d => 10 * n + d) 0

/-- The characters are `w` digits, and show the number `n`. -/
def Shows (w n : ℕ) (l : List Ch) : Prop :=
  ∃ ds : List ℕ, l = ds.map Ch.digit ∧ ds.length = w ∧ (∀ d ∈ ds, d < 10) ∧ valueOf ds = n

/-- The text of a moment: a year of two digits, a day of three, and hours, minutes and seconds of two. -/
def IsText (f : Format) (y d h m s : ℕ) (t : List Ch) : Prop :=
  ∃ ly ld lh lm ls : List Ch, Shows 2 y ly ∧ Shows 3 d ld ∧ Shows 2 h lh ∧ Shows 2 m lm ∧ Shows 2 s ls ∧
    (f = Format.colon ∧ t = ly ++ [Ch.colon] ++ ld ++ [Ch.colon] ++ lh ++ [Ch.colon] ++ lm ++ [Ch.colon] ++ ls ∨
      f = Format.noColon ∧ t = ly ++ ld ++ lh ++ lm ++ ls)

/-- The whole second nearest to a time, the later of two that are equally near. -/
def Nearest (x : K) (n : ℤ) : Prop := (n : K) - 1 / 2 ≤ x ∧ x < (n : K) + 1 / 2

end Gunns.Time.Spec
