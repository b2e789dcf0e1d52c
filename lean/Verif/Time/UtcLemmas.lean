import Mathlib.Tactic.IntervalCases
import Mathlib.Tactic.Linarith
import Mathlib.Tactic.Ring
import Mathlib.Algebra.Order.Ring.Cast
import Verif.Time.UtcSpec

/-!
# Lemmas about calendar time
-/

set_option linter.unusedSectionVars false

namespace Gunns.Time

open Spec

variable {K : Type _} [Field K] [LinearOrder K] [IsStrictOrderedRing K] [FloorRing K]

theorem isLeapYear_iff (y : ℤ) : isLeapYear y = true ↔ Leap y := by
  unfold isLeapYear Leap
  rw [Int.dvd_iff_tmod_eq_zero (a := 4), Int.dvd_iff_tmod_eq_zero (a := 100),
    Int.dvd_iff_tmod_eq_zero (a := 400)]
  have e : y.tmod 400 = 0 → y.tmod 4 = 0 := by
    rw [← Int.dvd_iff_tmod_eq_zero, ← Int.dvd_iff_tmod_eq_zero]
    intro h
    omega
  simp only [Bool.or_eq_true, Bool.and_eq_true, Bool.not_eq_true', bne_eq_false_iff_eq, bne_iff_ne, ne_eq]
  constructor
  · rintro (⟨h1, h2⟩ | h)
    · exact ⟨h1, fun c => absurd c h2⟩
    · exact ⟨e h, fun _ => h⟩
  · rintro ⟨h1, h2⟩
    by_cases c : y.tmod 100 = 0
    · exact Or.inr (h2 c)
    · exact Or.inl ⟨h1, c⟩

theorem isLeapYear_eq (y : ℤ) : isLeapYear y = decide (Leap y) := by
  rw [Bool.eq_iff_iff, isLeapYear_iff, decide_eq_true_iff]

theorem year2second_eq (y : ℤ) : (year2second y : K) = 86400 * ((yearDays y : ℤ) : K) := by
  unfold year2second yearDays leapYearSec commonYearSec
  rw [isLeapYear_eq]
  by_cases h : Leap y
  · rw [if_pos (decide_eq_true h), if_pos h]; norm_num
  · rw [if_neg (by rw [decide_eq_true_iff]; exact h), if_neg h]; norm_num

/-- The days before a year, from the first of January of the year 1. -/
def yearNo (y : ℤ) : ℤ := 365 * y + (y - 1) / 4 - (y - 1) / 100 + (y - 1) / 400

theorem yearNo_succ (y : ℤ) : yearNo (y + 1) = yearNo y + yearDays y := by
  unfold yearNo yearDays Leap
  split_ifs with h <;> omega

theorem yearNo_mono {a b : ℤ} (h : a ≤ b) : yearNo a ≤ yearNo b := by
  unfold yearNo
  omega

/-- The days of the calendar to the day of a date. -/
def dayNo (d : Date) : ℤ := yearNo d.year + month2day d.year d.month + d.day

/-- The days before a month, from the tables. -/
theorem month2day_in {y m : ℤ} (h1 : 1 ≤ m) (h2 : m ≤ 12) : month2day y m =
    if Leap y then listLeap.getD m.toNat 0 else listCommon.getD m.toNat 0 := by
  unfold month2day
  rw [if_pos ⟨by omega, by omega⟩, isLeapYear_eq]
  by_cases h : Leap y
  · rw [if_pos (decide_eq_true h), if_pos h]
  · rw [if_neg (by rw [decide_eq_true_iff]; exact h), if_neg h]

/-- The days before the next month are those before this month and those of this month. -/
theorem month2day_succ (y m : ℤ) (h1 : 1 ≤ m) (h2 : m < 12) :
    month2day y (m + 1) = month2day y m + monthDays y m := by
  rw [month2day_in (by omega) (by omega), month2day_in h1 (by omega)]
  unfold monthDays
  by_cases h : Leap y
  · simp only [if_pos h]
    clear h
    interval_cases m <;> decide
  · simp only [if_neg h]
    clear h
    interval_cases m <;> decide

theorem month2day_one (y : ℤ) : month2day y 1 = 0 := by
  unfold month2day
  rw [if_pos ⟨by omega, by omega⟩]
  split_ifs <;> rfl

theorem month2day_last (y : ℤ) : month2day y 12 + monthDays y 12 = yearDays y := by
  rw [month2day_in (by norm_num) (le_refl _)]
  unfold monthDays yearDays
  by_cases h : Leap y
  · simp only [if_pos h]
    clear h
    decide
  · simp only [if_neg h]
    clear h
    decide

theorem monthDays_pos (y m : ℤ) : 28 ≤ monthDays y m := by
  unfold monthDays
  split_ifs <;> norm_num

theorem dayNo_next {d : Date} (h : d.Proper) : dayNo d.next = dayNo d + 1 := by
  obtain ⟨y, m, k⟩ := d
  obtain ⟨h1, h2, h3, h4⟩ := h
  simp only at h1 h2 h3 h4
  unfold Date.next dayNo
  simp only
  split_ifs with c c'
  · simp only; omega
  · simp only
    rw [month2day_succ y m h1 c']
    omega
  · simp only
    have e : m = 12 := by omega
    subst e
    rw [month2day_one, yearNo_succ, ← month2day_last]
    omega

theorem next_proper {d : Date} (h : d.Proper) : d.next.Proper := by
  obtain ⟨y, m, k⟩ := d
  obtain ⟨h1, h2, h3, h4⟩ := h
  simp only at h1 h2 h3 h4
  unfold Date.next Date.Proper
  simp only
  split_ifs with c c'
  · simp only; omega
  · simp only
    have := monthDays_pos y (m + 1)
    omega
  · simp only
    have := monthDays_pos (y + 1) 1
    omega

theorem later_proper {d : Date} (h : d.Proper) (n : ℕ) : (d.later n).Proper := by
  induction n with
  | zero => exact h
  | succ n ih => exact next_proper ih

theorem dayNo_later {d : Date} (h : d.Proper) (n : ℕ) : dayNo (d.later n) = dayNo d + n := by
  induction n with
  | zero => simp [Date.later]
  | succ n ih =>
    show dayNo (d.later n).next = _
    rw [dayNo_next (later_proper h n), ih]
    push_cast
    ring

/-- The days of the months are in order. -/
theorem month2day_lt {y m m' : ℤ} (h1 : 1 ≤ m) (h : m < m') (h2 : m' ≤ 12) :
    month2day y m + monthDays y m ≤ month2day y m' := by
  obtain ⟨n, hn⟩ : ∃ n : ℕ, m' = m + 1 + n := ⟨(m' - m - 1).toNat, by omega⟩
  subst hn
  induction n with
  | zero =>
    have : m + 1 + ((0 : ℕ) : ℤ) = m + 1 := by simp
    rw [this, month2day_succ y m h1 (by omega)]
  | succ n ih =>
    have e : m + 1 + ((n + 1 : ℕ) : ℤ) = m + 1 + n + 1 := by push_cast; ring
    rw [e, month2day_succ y _ (by omega) (by push_cast at h2; omega)]
    have := ih (by omega) (by push_cast at h2; omega)
    have := monthDays_pos y (m + 1 + n)
    omega

theorem month2day_nonneg {y m : ℤ} (h1 : 1 ≤ m) (h2 : m ≤ 12) : 0 ≤ month2day y m := by
  rcases lt_or_eq_of_le h1 with c | c
  · have := month2day_lt (y := y) (le_refl 1) c h2
    rw [month2day_one] at this
    have := monthDays_pos y 1
    omega
  · rw [← c, month2day_one]

theorem month2day_le {y m : ℤ} (h1 : 1 ≤ m) (h2 : m ≤ 12) : month2day y m + monthDays y m ≤ yearDays y := by
  rw [← month2day_last]
  rcases lt_or_eq_of_le h2 with c | c
  · have := month2day_lt (y := y) h1 c (le_refl 12)
    have := monthDays_pos y 12
    omega
  · rw [c]

/-- A date within its year. -/
theorem ordinal_bounds {d : Date} (h : d.Proper) :
    1 ≤ month2day d.year d.month + d.day ∧ month2day d.year d.month + d.day ≤ yearDays d.year := by
  obtain ⟨h1, h2, h3, h4⟩ := h
  have := month2day_nonneg (y := d.year) h1 h2
  have := month2day_le (y := d.year) h1 h2
  omega

theorem dayNo_bounds {d : Date} (h : d.Proper) :
    yearNo d.year + 1 ≤ dayNo d ∧ dayNo d ≤ yearNo (d.year + 1) := by
  have := ordinal_bounds h
  unfold dayNo
  rw [yearNo_succ]
  omega

theorem dayNo_lt {a b : Date} (ha : a.Proper) (hb : b.Proper)
    (h : a.year < b.year ∨ a.year = b.year ∧ (a.month < b.month ∨ a.month = b.month ∧ a.day < b.day)) :
    dayNo a < dayNo b := by
  rcases h with h | ⟨e, h | ⟨e', h⟩⟩
  · have h1 := (dayNo_bounds ha).2
    have h2 := (dayNo_bounds hb).1
    have h3 : yearNo (a.year + 1) ≤ yearNo b.year := yearNo_mono (by omega)
    omega
  · have := month2day_lt (y := a.year) ha.1 h hb.2.1
    have h4 := ha.2.2.2
    have h5 := hb.2.2.1
    unfold dayNo
    rw [← e]
    omega
  · unfold dayNo
    rw [← e, ← e']
    omega

theorem dayNo_inj {a b : Date} (ha : a.Proper) (hb : b.Proper) (h : dayNo a = dayNo b) : a = b := by
  by_contra c
  have : (a.year < b.year ∨ a.year = b.year ∧ (a.month < b.month ∨ a.month = b.month ∧ a.day < b.day)) ∨
      (b.year < a.year ∨ b.year = a.year ∧ (b.month < a.month ∨ b.month = a.month ∧ b.day < a.day)) := by
    by_contra e
    apply c
    obtain ⟨y, m, d⟩ := a
    obtain ⟨y', m', d'⟩ := b
    simp only at e
    have h1 : y = y' := by omega
    have h2 : m = m' := by omega
    have h3 : d = d' := by omega
    rw [h1, h2, h3]
  rcases this with e | e
  · have := dayNo_lt ha hb e; omega
  · have := dayNo_lt hb ha e; omega

theorem loop_years (b : ℤ) (n : ℕ) (s : K) :
    loop (fun k (s : K) => s + year2second (b + k)) n s = s + 86400 * ((yearNo (b + n) - yearNo b : ℤ) : K) := by
  induction n with
  | zero => simp
  | succ n ih =>
    rw [loop_succ, ih, year2second_eq]
    have e : b + ((n + 1 : ℕ) : ℤ) = b + n + 1 := by push_cast; ring
    rw [e, yearNo_succ]
    push_cast
    ring

theorem sgmt2second_eq (u : Utc K) :
    sgmt2second u = 86400 * ((dayNo (date u) - yearNo u.year - 1 : ℤ) : K) + clock u := by
  unfold sgmt2second clock dayNo date secPerDay secPerHr secPerMin
  push_cast
  ring

theorem subtraction_eq (a b : Utc K) :
    subtraction a b = 86400 * ((dayNo (date a) - dayNo (date b) : ℤ) : K) + (clock a - clock b) := by
  unfold subtraction
  simp only
  rw [loop_years, loop_years, sgmt2second_eq, sgmt2second_eq]
  rcases le_total a.year b.year with h | h
  · have e1 : (a.year - b.year).toNat = 0 := by omega
    have e2 : a.year + ((b.year - a.year).toNat : ℤ) = b.year := by omega
    rw [e1, e2]
    simp only [date, Nat.cast_zero, add_zero, sub_self]
    push_cast
    ring
  · have e1 : (b.year - a.year).toNat = 0 := by omega
    have e2 : b.year + ((a.year - b.year).toNat : ℤ) = a.year := by omega
    rw [e1, e2]
    simp only [date, Nat.cast_zero, add_zero, sub_self]
    push_cast
    ring

theorem clock_bounds {u : Utc K} (h : Proper u) : 0 ≤ clock u ∧ clock u < 86400 := by
  obtain ⟨-, ⟨h1, h2⟩, ⟨h3, h4⟩, h5, h6⟩ := h
  unfold clock
  have e1 : (0 : K) ≤ (u.hour : K) := by exact_mod_cast h1
  have e2 : (u.hour : K) ≤ 23 := by exact_mod_cast h2
  have e3 : (0 : K) ≤ (u.minute : K) := by exact_mod_cast h3
  have e4 : (u.minute : K) ≤ 59 := by exact_mod_cast h4
  constructor <;> linarith

theorem castLt {a b : ℤ} (h : a < b) : (a : K) + 1 ≤ (b : K) := by exact_mod_cast h

theorem clock_lt {a b : Utc K} (ha : Proper a) (hb : Proper b)
    (h : a.hour < b.hour ∨ a.hour = b.hour ∧ (a.minute < b.minute ∨ a.minute = b.minute ∧ a.second < b.second)) :
    clock a < clock b := by
  obtain ⟨-, -, ⟨a3, a4⟩, a5, a6⟩ := ha
  obtain ⟨-, -, ⟨b3, b4⟩, b5, b6⟩ := hb
  have e1 : (0 : K) ≤ (b.minute : K) := by exact_mod_cast b3
  have e2 : (a.minute : K) ≤ 59 := by exact_mod_cast a4
  unfold clock
  rcases h with h | ⟨e, h | ⟨e', h⟩⟩
  · have := castLt (K := K) h
    linarith
  · have := castLt (K := K) h
    rw [e]
    linarith
  · rw [e, e']
    linarith

theorem subtraction_neg_of_before {a b : Utc K} (ha : Proper a) (hb : Proper b) (h : Before a b) :
    subtraction a b < 0 := by
  rw [subtraction_eq]
  have ca := clock_bounds ha
  have cb := clock_bounds hb
  have day : dayNo (date a) < dayNo (date b) →
      86400 * ((dayNo (date a) - dayNo (date b) : ℤ) : K) + (clock a - clock b) < 0 := by
    intro c
    have : ((dayNo (date a) - dayNo (date b) : ℤ) : K) ≤ -1 := by
      have : dayNo (date a) - dayNo (date b) ≤ -1 := by omega
      exact_mod_cast this
    linarith [ca.1, ca.2, cb.1, cb.2]
  unfold Before at h
  rcases h with h | ⟨e1, h | ⟨e2, h | ⟨e3, h⟩⟩⟩
  · exact day (dayNo_lt ha.date hb.date (Or.inl h))
  · exact day (dayNo_lt ha.date hb.date (Or.inr ⟨e1, Or.inl h⟩))
  · exact day (dayNo_lt ha.date hb.date (Or.inr ⟨e1, Or.inr ⟨e2, h⟩⟩))
  · have e : date a = date b := by unfold date; rw [e1, e2, e3]
    rw [e, sub_self]
    have := clock_lt ha hb h
    push_cast
    linarith

theorem before_total {a b : Utc K} : Before a b ∨ Before b a ∨ a = b := by
  obtain ⟨y, m, d, h, mi, s⟩ := a
  obtain ⟨y', m', d', h', mi', s'⟩ := b
  unfold Before
  simp only
  rcases lt_trichotomy y y' with c | c | c
  · exact Or.inl (Or.inl c)
  swap
  · exact Or.inr (Or.inl (Or.inl c))
  subst c
  rcases lt_trichotomy m m' with c | c | c
  · exact Or.inl (Or.inr ⟨rfl, Or.inl c⟩)
  swap
  · exact Or.inr (Or.inl (Or.inr ⟨rfl, Or.inl c⟩))
  subst c
  rcases lt_trichotomy d d' with c | c | c
  · exact Or.inl (Or.inr ⟨rfl, Or.inr ⟨rfl, Or.inl c⟩⟩)
  swap
  · exact Or.inr (Or.inl (Or.inr ⟨rfl, Or.inr ⟨rfl, Or.inl c⟩⟩))
  subst c
  rcases lt_trichotomy h h' with c | c | c
  · exact Or.inl (Or.inr ⟨rfl, Or.inr ⟨rfl, Or.inr ⟨rfl, Or.inl c⟩⟩⟩)
  swap
  · exact Or.inr (Or.inl (Or.inr ⟨rfl, Or.inr ⟨rfl, Or.inr ⟨rfl, Or.inl c⟩⟩⟩))
  subst c
  rcases lt_trichotomy mi mi' with c | c | c
  · exact Or.inl (Or.inr ⟨rfl, Or.inr ⟨rfl, Or.inr ⟨rfl, Or.inr ⟨rfl, Or.inl c⟩⟩⟩⟩)
  swap
  · exact Or.inr (Or.inl (Or.inr ⟨rfl, Or.inr ⟨rfl, Or.inr ⟨rfl, Or.inr ⟨rfl, Or.inl c⟩⟩⟩⟩))
  subst c
  rcases lt_trichotomy s s' with c | c | c
  · exact Or.inl (Or.inr ⟨rfl, Or.inr ⟨rfl, Or.inr ⟨rfl, Or.inr ⟨rfl, Or.inr ⟨rfl, c⟩⟩⟩⟩⟩)
  swap
  · exact Or.inr (Or.inl (Or.inr ⟨rfl, Or.inr ⟨rfl, Or.inr ⟨rfl, Or.inr ⟨rfl, Or.inr ⟨rfl, c⟩⟩⟩⟩⟩))
  subst c
  exact Or.inr (Or.inr rfl)

theorem subtraction_swap (a b : Utc K) : subtraction b a = -subtraction a b := by
  rw [subtraction_eq, subtraction_eq]
  push_cast
  ring

/-- Every date is so many days after any earlier one. -/
theorem exists_later {a b : Date} (ha : a.Proper) (hb : b.Proper) (h : dayNo a ≤ dayNo b) :
    ∃ n : ℕ, b = a.later n := by
  refine ⟨(dayNo b - dayNo a).toNat, dayNo_inj hb (later_proper ha _) ?_⟩
  rw [dayNo_later ha]
  omega

theorem daysInMonth_eq (u : Utc K) : daysInMonth u =
    if 1970 ≤ u.year ∧ u.year ≤ 2200 ∧ 1 ≤ u.month ∧ u.month ≤ 12 then monthDays u.year u.month else 0 := by
  unfold daysInMonth minYear maxYear
  by_cases h : u.year ≥ 1970 ∧ u.year ≤ 2200 ∧ u.month > 0 ∧ u.month ≤ 12
  · have h' : 1970 ≤ u.year ∧ u.year ≤ 2200 ∧ 1 ≤ u.month ∧ u.month ≤ 12 := ⟨h.1, h.2.1, by omega, h.2.2.2⟩
    rw [if_pos h, if_pos h', isLeapYear_eq]
    clear h'
    obtain ⟨y, m, d, hh, mi, s⟩ := u
    simp only at h
    obtain ⟨-, -, h1, h2⟩ := h
    have h1' : 1 ≤ m := h1
    simp only
    unfold monthDays
    by_cases hl : Leap y
    · simp only [if_pos hl, if_pos (decide_eq_true hl)]
      clear hl
      interval_cases m <;> decide
    · simp only [if_neg hl, if_neg (show ¬ decide (Leap y) = true by rw [decide_eq_true_iff]; exact hl)]
      clear hl
      interval_cases m <;> decide
  · rw [if_neg h, if_neg (fun c => h ⟨c.1, c.2.1, by omega, c.2.2.2⟩)]

end Gunns.Time
