import Mathlib.Data.Rat.Floor
import Verif.Time.UtcText

/-!
# C59: calendar time

The difference of two UTC times is the time that passes on the Gregorian calendar, and the strings made of a
time of the year show it.
-/

set_option linter.unusedSectionVars false

namespace Gunns.Props

open Gunns.Time Gunns.Time.Spec

variable {K : Type _} [Field K] [LinearOrder K] [IsStrictOrderedRing K] [FloorRing K]

/-- **C59, the calendar.**  From any moment to one whose date is any number of days later on the calendar, the
difference is so many times 86400 seconds and the difference of the clocks. -/
theorem c59_days (a b : Utc K) (n : ℕ) (ha : (date a).Proper) (hb : date b = (date a).later n) :
    subtraction b a = 86400 * (n : K) + (clock b - clock a) := by
  rw [subtraction_eq, hb, dayNo_later ha, add_sub_cancel_left]
  push_cast
  ring

/-- ... and every date of the calendar is so many days after any date that is not later than it, so the rule
above gives the difference of any two moments. -/
theorem c59_reach (a b : Utc K) (ha : (date a).Proper) (hb : (date b).Proper) :
    ∃ n : ℕ, date b = (date a).later n ∨ date a = (date b).later n := by
  rcases le_total (dayNo (date a)) (dayNo (date b)) with h | h
  · obtain ⟨n, e⟩ := exists_later ha hb h
    exact ⟨n, Or.inl e⟩
  · obtain ⟨n, e⟩ := exists_later hb ha h
    exact ⟨n, Or.inr e⟩

/-- The 28th of February of 2100 and the 1st of March are one day apart, and of 2000 two. -/
example : subtraction (⟨2100, 3, 1, 0, 0, 0⟩ : Utc ℚ) ⟨2100, 2, 28, 0, 0, 0⟩ = 86400 ∧
    subtraction (⟨2000, 3, 1, 0, 0, 0⟩ : Utc ℚ) ⟨2000, 2, 28, 0, 0, 0⟩ = 172800 ∧
    (date (⟨2100, 2, 28, 0, 0, 0⟩ : Utc ℚ)).later 1 = ⟨2100, 3, 1⟩ := by
  decide +kernel

/-- **C59, the order.**  Of two moments that the calendar and the clock have, the difference is negative
exactly if the first is earlier, and zero exactly if they are the same. -/
theorem c59_order (a b : Utc K) (ha : Proper a) (hb : Proper b) :
    (subtraction a b < 0 ↔ Before a b) ∧ (subtraction a b = 0 ↔ a = b) := by
  have self : subtraction a a = 0 := by rw [subtraction_eq]; simp
  have h1 := fun h : Before a b => subtraction_neg_of_before ha hb h
  have h2 := fun h : Before b a => subtraction_neg_of_before hb ha h
  rw [subtraction_swap] at h2
  rcases before_total (a := a) (b := b) with h | h | h
  · have := h1 h
    refine ⟨⟨fun _ => h, fun _ => this⟩, fun e => absurd e this.ne, ?_⟩
    rintro rfl
    exact self
  · have h3 := h2 h
    refine ⟨⟨fun c => absurd c (by linarith), h1⟩, fun e => absurd e (by linarith), ?_⟩
    rintro rfl
    exact self
  · subst h
    refine ⟨⟨fun c => absurd c (by rw [self]; exact lt_irrefl _), fun h => absurd (h1 h) ?_⟩, fun _ => rfl,
      fun _ => self⟩
    rw [self]
    exact lt_irrefl _

/-- **C59, differences add up.**  For any three moments, proper or not. -/
theorem c59_additive (a b c : Utc K) :
    subtraction a c = subtraction a b + subtraction b c ∧ subtraction b a = -subtraction a b := by
  refine ⟨?_, subtraction_swap a b⟩
  rw [subtraction_eq, subtraction_eq, subtraction_eq]
  push_cast
  ring

/-- **C59, days of a month.**  From 1970 to 2200 they are those of the calendar; zero for any other year, and
for what is not a month. -/
theorem c59_days_in_month (u : Utc K) :
    (1970 ≤ u.year ∧ u.year ≤ 2200 ∧ 1 ≤ u.month ∧ u.month ≤ 12 →
      daysInMonth u = monthDays u.year u.month) ∧
    (¬ (1970 ≤ u.year ∧ u.year ≤ 2200 ∧ 1 ≤ u.month ∧ u.month ≤ 12) → daysInMonth u = 0) := by
  rw [daysInMonth_eq]
  exact ⟨fun h => if_pos h, fun h => if_neg h⟩

/-- **C59, what is accepted.**  A moment is accepted exactly if it is in the years 1970 to 2200, its date is of
the calendar, its hour and its minute are of the clock, and its seconds are at least 0 and less than **3600**.
Every proper moment of those years is accepted. -/
theorem c59_valid (u : Utc K) :
    (isValid u = true ↔ 1970 ≤ u.year ∧ u.year ≤ 2200 ∧ (date u).Proper ∧ 0 ≤ u.hour ∧ u.hour ≤ 23 ∧
      0 ≤ u.minute ∧ u.minute ≤ 59 ∧ 0 ≤ u.second ∧ u.second < 3600) ∧
    (1970 ≤ u.year → u.year ≤ 2200 → Proper u → isValid u = true) := by
  have key : isValid u = true ↔ 1970 ≤ u.year ∧ u.year ≤ 2200 ∧ (date u).Proper ∧ 0 ≤ u.hour ∧ u.hour ≤ 23 ∧
      0 ≤ u.minute ∧ u.minute ≤ 59 ∧ 0 ≤ u.second ∧ u.second < 3600 := by
    unfold isValid Date.Proper date hrPerDay minPerHr secPerHr
    rw [daysInMonth_eq]
    have hm := monthDays_pos u.year u.month
    by_cases h : 1970 ≤ u.year ∧ u.year ≤ 2200 ∧ 1 ≤ u.month ∧ u.month ≤ 12
    · rw [if_pos h, if_pos (by omega), decide_eq_true_iff]
      push_cast
      constructor
      · rintro ⟨a1, a2, a3, a4, a5, a6, a7, a8⟩
        exact ⟨h.1, h.2.1, ⟨h.2.2.1, h.2.2.2, by omega, a2⟩, a3, by omega, a5, by omega, a7, a8⟩
      · rintro ⟨-, -, ⟨-, -, a1, a2⟩, a3, a4, a5, a6, a7, a8⟩
        exact ⟨by omega, a2, a3, by omega, a5, by omega, a7, a8⟩
    · rw [if_neg h, if_neg (by omega)]
      constructor
      · intro c
        cases c
      · rintro ⟨a1, a2, ⟨a3, a4, -⟩, -⟩
        exact absurd ⟨a1, a2, a3, a4⟩ h
  refine ⟨key, fun h1 h2 h3 => key.2 ⟨h1, h2, h3.date, h3.hour.1, h3.hour.2, h3.minute.1, h3.minute.2,
    h3.second.1, lt_trans h3.second.2 (by norm_num)⟩⟩

/-- **C59, seconds that no clock has are accepted.**  Every moment proper but for its seconds, from 60 up to
3600, is accepted; and then a moment that reads as earlier is not: 10:00:90 is accepted, and by the difference
it is half a minute after 10:01:00. -/
theorem c59_seconds_accepted :
    (∀ u : Utc K, Proper u → 1970 ≤ u.year → u.year ≤ 2200 → ∀ s : K, 60 ≤ s → s < 3600 →
      isValid { u with second := s } = true ∧ ¬ Proper { u with second := s }) ∧
    ∃ a b : Utc K, isValid a = true ∧ isValid b = true ∧ Before a b ∧ subtraction a b = 30 := by
  constructor
  · intro u h h1 h2 s hs hs'
    refine ⟨(c59_valid _).1.2 ⟨h1, h2, h.date, h.hour.1, h.hour.2, h.minute.1, h.minute.2, by linarith, hs'⟩, ?_⟩
    intro c
    exact absurd c.second.2 (not_lt.2 hs)
  · have hd : (date (⟨2020, 1, 1, 10, 0, 90⟩ : Utc K)).Proper := by
      show (⟨2020, 1, 1⟩ : Date).Proper
      unfold Date.Proper
      decide
    refine ⟨⟨2020, 1, 1, 10, 0, 90⟩, ⟨2020, 1, 1, 10, 1, 0⟩, ?_, ?_, ?_, ?_⟩
    · exact (c59_valid _).1.2 ⟨by norm_num, by norm_num, hd, by norm_num, by norm_num, by norm_num, by norm_num,
        by norm_num, by norm_num⟩
    · exact (c59_valid _).1.2 ⟨by norm_num, by norm_num, hd, by norm_num, by norm_num, by norm_num, by norm_num,
        by norm_num, by norm_num⟩
    · exact Or.inr ⟨rfl, Or.inr ⟨rfl, Or.inr ⟨rfl, Or.inr ⟨rfl, Or.inl (by norm_num)⟩⟩⟩⟩
    · rw [subtraction_eq]
      show 86400 * ((dayNo ⟨2020, 1, 1⟩ - dayNo ⟨2020, 1, 1⟩ : ℤ) : K) + (clock _ - clock _) = 30
      unfold clock
      norm_num

/-- **C59, the time of the year.**  The seconds of a moment of a proper date are the days that the calendar
counts from the first of January, and the clock. -/
theorem c59_seconds (u : Utc K) (n : ℕ) (h : (date u).IsDay n) :
    sgmt2second u = 86400 * (n : K) + clock u := by
  have p : (⟨u.year, 1, 1⟩ : Date).Proper := by
    unfold Date.Proper
    have := monthDays_pos u.year 1
    simp only
    omega
  rw [sgmt2second_eq, show date u = (⟨u.year, 1, 1⟩ : Date).later n from h, dayNo_later p]
  have e : dayNo ⟨u.year, 1, 1⟩ = yearNo u.year + 1 := by
    unfold dayNo
    simp only
    rw [month2day_one]
    omega
  rw [e]
  push_cast
  ring

/-- The 1st of March is day 59 of a common year and day 60 of a leap year, from 0. -/
example : (⟨2023, 3, 1⟩ : Date).IsDay 59 ∧ (⟨2024, 3, 1⟩ : Date).IsDay 60 := by
  unfold Date.IsDay
  decide +kernel

/-- **C59, what is not a month counts as January.** -/
theorem c59_bad_month (u : Utc K) (h : ¬ (1 ≤ u.month ∧ u.month ≤ 12)) :
    sgmt2second u = sgmt2second { u with month := 1 } := by
  have e : month2day u.year u.month = 0 := by
    unfold month2day
    exact if_neg (by omega)
  unfold sgmt2second
  simp only
  rw [e, month2day_one]

/-- **C59, the string of a moment.**  Every proper moment prints as the day of the year that the calendar
counts, from 1, its hour, its minute and its whole seconds. -/
theorem c59_string (u : Utc K) (hu : Proper u) (n : ℕ) (h : (date u).IsDay n) :
    ∃ ld lh lm ls : List Ch, Shows 3 (n + 1) ld ∧ Shows 2 u.hour.toNat lh ∧ Shows 2 u.minute.toNat lm ∧
      (∃ k : ℕ, (k : K) ≤ u.second ∧ u.second < k + 1 ∧ Shows 2 k ls) ∧
      sgmt2string u = ld ++ [Ch.colon] ++ lh ++ [Ch.colon] ++ lm ++ [Ch.colon] ++ ls := by
  have p : (⟨u.year, 1, 1⟩ : Date).Proper := by
    unfold Date.Proper
    have := monthDays_pos u.year 1
    simp only
    omega
  have e : month2day u.year u.month + u.day = n + 1 := by
    have e1 : dayNo (date u) = dayNo ⟨u.year, 1, 1⟩ + n := by
      rw [show date u = (⟨u.year, 1, 1⟩ : Date).later n from h, dayNo_later p]
    have e2 : dayNo ⟨u.year, 1, 1⟩ = yearNo u.year + 1 := by
      unfold dayNo
      simp only
      rw [month2day_one]
      omega
    have e3 : dayNo (date u) = yearNo u.year + month2day u.year u.month + u.day := rfl
    omega
  have b := (ordinal_bounds hu.date).2
  have b' : month2day u.year u.month + u.day ≤ yearDays u.year := b
  have b2 : yearDays u.year ≤ 366 := by unfold yearDays; split_ifs <;> norm_num
  have f0 : 0 ≤ ⌊u.second⌋ := Int.floor_nonneg.2 hu.second.1
  have f1 : ⌊u.second⌋ < 60 := Int.floor_lt.2 (by push_cast; exact hu.second.2)
  have hh := hu.hour
  have hm := hu.minute
  refine ⟨fmt 3 (month2day u.year u.month + u.day), fmt 2 u.hour, fmt 2 u.minute, fmt 2 ⌊u.second⌋, ?_, ?_, ?_,
    ⟨⌊u.second⌋.toNat, ?_, ?_, ?_⟩, rfl⟩
  · exact shows_fmt' (by rw [e]; push_cast; rfl) (by omega)
  · exact shows_fmt' (by omega) (by omega)
  · exact shows_fmt' (by omega) (by omega)
  · have := Int.floor_le u.second
    have c : ((⌊u.second⌋.toNat : ℕ) : K) = ((⌊u.second⌋ : ℤ) : K) := by
      exact_mod_cast congrArg (Int.cast (R := K)) (Int.toNat_of_nonneg f0)
    rw [c]
    exact this
  · have := Int.lt_floor_add_one u.second
    have c : ((⌊u.second⌋.toNat : ℕ) : K) = ((⌊u.second⌋ : ℤ) : K) := by
      exact_mod_cast congrArg (Int.cast (R := K)) (Int.toNat_of_nonneg f0)
    rw [c]
    exact this
  · exact shows_fmt' (by omega) (by omega)

/-- **C59, a time of the year as a string.**  For seconds from 0 up to half a second before the end of the year
the string, in either format, shows the year, and the day, the hour, the minute and the second of the nearest
whole second; the year is left alone.  From the end of the year to half a second before the end of the next
one, it is the time of the next year that is shown, and the year is one more. -/
theorem c59_sgmt (f : Format) (hf : f ≠ Format.other) (year : ℤ) (hy : 0 ≤ year) (t : K) (ht : 0 ≤ t) :
    (t < 86400 * (yearDays year : K) - 1 / 2 →
      ∃ (text : List Ch) (n D H M S : ℕ), yseconds2sgmt f t year = some ⟨true, year, some text⟩ ∧
        IsText f (year.toNat % 100) (D + 1) H M S text ∧ Nearest t (n : ℤ) ∧
        n = 86400 * D + 3600 * H + 60 * M + S ∧ (D : ℤ) < yearDays year ∧ H < 24 ∧ M < 60 ∧ S < 60) ∧
    (t < 86400 * (yearDays (year + 1) : K) - 1 / 2 →
      ∃ (text : List Ch) (n D H M S : ℕ),
        yseconds2sgmt f (86400 * (yearDays year : K) + t) year = some ⟨true, year + 1, some text⟩ ∧
        IsText f ((year + 1).toNat % 100) (D + 1) H M S text ∧ Nearest t (n : ℤ) ∧
        n = 86400 * D + 3600 * H + 60 * M + S ∧ (D : ℤ) < yearDays (year + 1) ∧ H < 24 ∧ M < 60 ∧ S < 60) := by
  have main : ∀ (y' : ℤ) (seconds : K), 0 ≤ y' →
      (seconds < year2second year ∧ y' = year ∧ t = seconds ∨
        (year2second year : K) ≤ seconds ∧ y' = year + 1 ∧ t = seconds - year2second year) →
      t < 86400 * (yearDays y' : K) - 1 / 2 →
      ∃ (text : List Ch) (n D H M S : ℕ), yseconds2sgmt f seconds year = some ⟨true, y', some text⟩ ∧
        IsText f (y'.toNat % 100) (D + 1) H M S text ∧ Nearest t (n : ℤ) ∧
        n = 86400 * D + 3600 * H + 60 * M + S ∧ (D : ℤ) < yearDays y' ∧ H < 24 ∧ M < 60 ∧ S < 60 := by
    intro y' seconds hy' hs hlt
    obtain ⟨n, hn⟩ := exists_nearest ht
    obtain ⟨e, hH, hM, hS⟩ := exists_parts n
    have hb : (n : ℤ) < 86400 * yearDays y' := by
      have h1 : ((n : ℤ) : K) - 1 / 2 ≤ t := hn.1
      have h2 : ((n : ℤ) : K) < ((86400 * yearDays y' : ℤ) : K) := by push_cast at h1 ⊢; linarith
      exact_mod_cast h2
    have b2 : yearDays y' ≤ 366 := by unfold yearDays; split_ifs <;> norm_num
    have hD : ((n / 86400 : ℕ) : ℤ) < yearDays y' := by omega
    obtain ⟨text, h1, h2⟩ := yseconds_text hf hy' hs ht hn (by omega) e (by omega) hH hM hS
    exact ⟨text, n, _, _, _, _, h1, h2, hn, e, hD, hH, hM, hS⟩
  constructor
  · intro h
    refine main year t hy (Or.inl ⟨?_, rfl, rfl⟩) h
    rw [year2second_eq]
    linarith
  · intro h
    refine main (year + 1) _ (by omega) (Or.inr ⟨?_, rfl, ?_⟩) h
    · rw [year2second_eq]
      linarith
    · rw [year2second_eq]
      ring

/-- Noon of the first of February of 1999. -/
example : yseconds2sgmt Format.colon (31 * 86400 + 12 * 3600 + 61 : ℚ) 1999 = some ⟨true, 1999, some
    ([9, 9].map Ch.digit ++ [Ch.colon] ++ [0, 3, 2].map Ch.digit ++ [Ch.colon] ++ [1, 2].map Ch.digit ++
      [Ch.colon] ++ [0, 1].map Ch.digit ++ [Ch.colon] ++ [0, 1].map Ch.digit)⟩ := by
  decide +kernel

/-- **C59, round trip.**  The seconds of a proper moment with whole seconds, made into a string, show its year,
the day that the calendar counts, its hour, its minute and its second. -/
theorem c59_round_trip (f : Format) (hf : f ≠ Format.other) (u : Utc K) (hu : Proper u) (hy : 0 ≤ u.year)
    (n k : ℕ) (h : (date u).IsDay n) (hk : u.second = (k : K)) :
    ∃ text, yseconds2sgmt f (sgmt2second u) u.year = some ⟨true, u.year, some text⟩ ∧
      IsText f (u.year.toNat % 100) (n + 1) u.hour.toNat u.minute.toNat k text := by
  have hh := hu.hour
  have hm := hu.minute
  have hs := hu.second
  have hk60 : k < 60 := by
    rw [hk] at hs
    exact_mod_cast hs.2
  have p : (⟨u.year, 1, 1⟩ : Date).Proper := by
    unfold Date.Proper
    have := monthDays_pos u.year 1
    simp only
    omega
  have e : month2day u.year u.month + u.day = n + 1 := by
    have e1 : dayNo (date u) = dayNo ⟨u.year, 1, 1⟩ + n := by
      rw [show date u = (⟨u.year, 1, 1⟩ : Date).later n from h, dayNo_later p]
    have e2 : dayNo ⟨u.year, 1, 1⟩ = yearNo u.year + 1 := by
      unfold dayNo
      simp only
      rw [month2day_one]
      omega
    have e3 : dayNo (date u) = yearNo u.year + month2day u.year u.month + u.day := rfl
    omega
  have b : month2day u.year u.month + u.day ≤ yearDays u.year := (ordinal_bounds hu.date).2
  have b2 : yearDays u.year ≤ 366 := by unfold yearDays; split_ifs <;> norm_num
  obtain ⟨N, hN⟩ : ∃ N : ℕ, N = 86400 * n + 3600 * u.hour.toNat + 60 * u.minute.toNat + k := ⟨_, rfl⟩
  have c1 : ((u.hour.toNat : ℕ) : K) = (u.hour : K) := by
    exact_mod_cast congrArg (Int.cast (R := K)) (Int.toNat_of_nonneg hh.1)
  have c2 : ((u.minute.toNat : ℕ) : K) = (u.minute : K) := by
    exact_mod_cast congrArg (Int.cast (R := K)) (Int.toNat_of_nonneg hm.1)
  have hsec : sgmt2second u = (N : K) := by
    rw [c59_seconds u n h, hN]
    unfold clock
    push_cast
    rw [c1, c2, hk]
    ring
  have hlt : (N : ℤ) < 86400 * yearDays u.year := by omega
  refine yseconds_text hf hy (Or.inl ⟨?_, rfl, rfl⟩) ?_ (n := N) ?_ (by omega) hN (by omega) (by omega)
    (by omega) hk60
  · rw [hsec, year2second_eq]
    exact_mod_cast hlt
  · rw [hsec]
    exact Nat.cast_nonneg N
  · rw [hsec]
    constructor
    · push_cast; linarith
    · push_cast; linarith

/-- **C59, the last half second of a year.**  The year is not advanced, and the day shown is one that the year
does not have, at midnight: day 366 of a common year, and 367 of a leap year. -/
theorem c59_year_end (f : Format) (hf : f ≠ Format.other) (year : ℤ) (hy : 0 ≤ year) (t : K)
    (h1 : 86400 * (yearDays year : K) - 1 / 2 ≤ t) (h2 : t < 86400 * (yearDays year : K)) :
    ∃ text, yseconds2sgmt f t year = some ⟨true, year, some text⟩ ∧
      IsText f (year.toNat % 100) ((yearDays year).toNat + 1) 0 0 0 text := by
  have b : yearDays year = 365 ∨ yearDays year = 366 := by unfold yearDays; split_ifs <;> norm_num
  have c : ((yearDays year).toNat : ℤ) = yearDays year := by omega
  have c' : (((yearDays year).toNat : ℕ) : K) = (yearDays year : K) := by
    exact_mod_cast congrArg (Int.cast (R := K)) c
  have d : (365 : K) ≤ (yearDays year : K) := by
    have : (365 : ℤ) ≤ yearDays year := by omega
    exact_mod_cast this
  refine yseconds_text hf hy (Or.inl ⟨?_, rfl, rfl⟩) ?_ (n := 86400 * (yearDays year).toNat) ?_ (by omega)
    (by omega) (by omega) (by norm_num) (by norm_num) (by norm_num)
  · rw [year2second_eq]
    exact h2
  · linarith
  · constructor
    · push_cast
      rw [c']
      exact h1
    · push_cast
      rw [c']
      linarith

/-- 0.4 seconds before the end of 2023. -/
example : yseconds2sgmt Format.noColon (31536000 - 2 / 5 : ℚ) 2023 =
    some ⟨true, 2023, some ([2, 3, 3, 6, 6, 0, 0, 0, 0, 0, 0].map Ch.digit)⟩ := by
  decide +kernel

/-- **C59, two years or more.**  The year is advanced by one at most, so seconds of two years or more show a day
that the year does not have (here up to the 998 days that three digits can show). -/
theorem c59_two_years (f : Format) (hf : f ≠ Format.other) (year : ℤ) (hy : 0 ≤ year) (t : K)
    (h1 : 86400 * (yearDays (year + 1) : K) ≤ t) (h2 : t < 86400 * 998) :
    ∃ (text : List Ch) (D H M S : ℕ),
      yseconds2sgmt f (86400 * (yearDays year : K) + t) year = some ⟨true, year + 1, some text⟩ ∧
      IsText f ((year + 1).toNat % 100) (D + 1) H M S text ∧ yearDays (year + 1) ≤ (D : ℤ) := by
  have b : 365 ≤ yearDays (year + 1) := by unfold yearDays; split_ifs <;> norm_num
  have d : (365 : K) ≤ (yearDays (year + 1) : K) := by exact_mod_cast b
  have ht : 0 ≤ t := by linarith
  obtain ⟨n, hn⟩ := exists_nearest ht
  obtain ⟨e, hH, hM, hS⟩ := exists_parts n
  have l1 : 86400 * yearDays (year + 1) ≤ (n : ℤ) := by
    have h3 : t < ((n : ℤ) : K) + 1 / 2 := hn.2
    have h4 : ((86400 * yearDays (year + 1) : ℤ) : K) < (((n : ℤ) + 1 : ℤ) : K) := by
      push_cast at h3 ⊢
      linarith
    have h5 : 86400 * yearDays (year + 1) < (n : ℤ) + 1 := by exact_mod_cast h4
    omega
  have l2 : (n : ℤ) ≤ 86400 * 998 := by
    have h3 : ((n : ℤ) : K) - 1 / 2 ≤ t := hn.1
    have h4 : ((n : ℤ) : K) < ((86400 * 998 + 1 : ℤ) : K) := by
      push_cast at h3 ⊢
      linarith
    have h5 : (n : ℤ) < 86400 * 998 + 1 := by exact_mod_cast h4
    omega
  obtain ⟨text, g1, g2⟩ := yseconds_text (year := year) (y' := year + 1)
    (seconds := 86400 * (yearDays year : K) + t) hf (by omega)
    (Or.inr ⟨by rw [year2second_eq]; linarith, rfl, by rw [year2second_eq]; ring⟩) ht hn (by omega) e (by omega)
    hH hM hS
  exact ⟨text, _, _, _, _, g1, g2, by omega⟩

/-- **C59, counts.**  A string of two digits each of hours, minutes and seconds, with a minus sign or without,
is counted in whole cycles: the greatest count that does not exceed the signed time over the cycle. -/
theorem c59_count (cycle : K) (lh lm ls : List Ch) (H M S : ℕ) (h1 : Shows 2 H lh) (h2 : Shows 2 M lm)
    (h3 : Shows 2 S ls) (n : ℤ) (r1 : -2147483648 ≤ n) (r2 : n ≤ 2147483647) :
    ((n : K) ≤ (3600 * H + 60 * M + S : K) / cycle → (3600 * H + 60 * M + S : K) / cycle < n + 1 →
      hms2count cycle (lh ++ [Ch.colon] ++ lm ++ [Ch.colon] ++ ls) = some (some n)) ∧
    ((n : K) ≤ -(3600 * H + 60 * M + S : K) / cycle → -(3600 * H + 60 * M + S : K) / cycle < n + 1 →
      hms2count cycle (Ch.minus :: (lh ++ [Ch.colon] ++ lm ++ [Ch.colon] ++ ls)) = some (some n)) := by
  obtain ⟨e1, e2⟩ := hms_digits (cycle := cycle) h1 h2 h3
  rw [e1, e2]
  constructor
  · intro a b
    have : ⌊((H * 3600 + M * 60 + S : ℤ) : K) / cycle⌋ = n := by
      rw [Int.floor_eq_iff]
      have c : ((H * 3600 + M * 60 + S : ℤ) : K) = (3600 * H + 60 * M + S : K) := by push_cast; ring
      rw [c]
      exact ⟨a, b⟩
    rw [this, castInt_int r1 r2]
    rfl
  · intro a b
    have : ⌊((-(H * 3600 + M * 60 + S) : ℤ) : K) / cycle⌋ = n := by
      rw [Int.floor_eq_iff]
      have c : ((-(H * 3600 + M * 60 + S) : ℤ) : K) = -(3600 * H + 60 * M + S : K) := by push_cast; ring
      rw [c]
      exact ⟨a, b⟩
    rw [this, castInt_int r1 r2]
    rfl

/-- An hour and a second before, in cycles of two seconds. -/
example : hms2count (2 : ℚ) (Ch.minus :: ([0, 1].map Ch.digit ++ [Ch.colon] ++ [0, 0].map Ch.digit ++ [Ch.colon] ++
    [0, 1].map Ch.digit)) = some (some (-1801)) := by
  decide +kernel

/-- **C59, adding a time adds nothing.**  Whatever is added, the sum is the same; its hour is never set, and if
it happens to be the hour that was there, the sum is the moment itself. -/
theorem c59_addition (garbage : ℤ) (a : Utc K) (d d' : K) :
    addition garbage a d = addition garbage a d' ∧
    subtraction (addition garbage a d) a = 3600 * ((garbage : K) - (a.hour : K)) ∧
    addition a.hour a d = a := by
  refine ⟨rfl, ?_, rfl⟩
  rw [subtraction_eq]
  have e : date (addition garbage a d) = date a := rfl
  rw [e, sub_self]
  unfold addition clock
  push_cast
  ring

end Gunns.Props
