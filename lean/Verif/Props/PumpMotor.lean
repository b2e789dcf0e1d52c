import Mathlib.Tactic.Linarith
import Mathlib.Tactic.Ring
import Mathlib.Tactic.FieldSimp
import Mathlib.Data.Rat.Floor
import Verif.Control.PumpMotor

/-!
# C104: the pump motor controller
-/

set_option linter.unusedSectionVars false

namespace Gunns.Props

open Gunns Gunns.PumpMotor
open Gunns.Interp (limitRange)

variable {K : Type _} [Field K] [LinearOrder K] [IsStrictOrderedRing K] [FloorRing K]

/-- The voltage that counts: that of the malfunction, if there is one. -/
def c104volts (i : Input K) : K := i.override.getD i.voltage

/-- The controller has power. -/
def c104bus (c : Config K) (i : Input K) : Prop := (c.minV ≤ c104volts i ∧ c104volts i ≤ c.maxV) ∧ i.failPower = false

/-- The controller runs the motor: it has power, is enabled, not tripped and has a speed to go to. -/
def c104runs (i : Input K) (s : State K) : Prop := s.motor = true ∧ fltEps < i.malfSpeed.getD i.command

/-- Some pass was too hot, and since then there was always power and it was never cool. -/
def c104hot (c : Config K) (i : ℕ → Input K) (n : ℕ) : Prop := ∃ k < n, c.hot < (i k).temp ∧ ∀ j, k ≤ j → j < n → c104bus c (i j) ∧ c.cool ≤ (i j).temp

private theorem filter_tripped (sin : K → K) (turn : K) (c : Config K) (i : Input K) (s : State K) :
    (filter sin turn c i s).tripped = s.tripped ∧ (filter sin turn c i s).ctl = s.ctl ∧ (filter sin turn c i s).motor = s.motor := by
  unfold filter
  simp only
  split <;> exact ⟨rfl, rfl, rfl⟩

private theorem buses (sin : K → K) (turn : K) (c : Config K) (i : Input K) (s : State K) :
    (step sin turn c i s).tripped = (power c i s).tripped ∧ (step sin turn c i s).ctl = (power c i s).ctl ∧ (step sin turn c i s).motor = (power c i s).motor :=
  filter_tripped sin turn c i (power c i s)

private theorem bus_iff (c : Config K) (i : Input K) : (inRange c.minV (i.override.getD i.voltage) c.maxV && !i.failPower) = true ↔ c104bus c i := by
  unfold inRange c104bus c104volts
  simp only [Bool.and_eq_true, decide_eq_true_eq, Bool.not_eq_true']

private theorem trip_step (c : Config K) (i : Input K) (s : State K) :
    (power c i s).tripped = true ↔ (c.hot < i.temp ∨ s.tripped = true) ∧ c104bus c i ∧ c.cool ≤ i.temp := by
  show (if (inRange c.minV (i.override.getD i.voltage) c.maxV && !i.failPower) = true then (decide (i.temp > c.hot) || s.tripped) && !decide (i.temp < c.cool) else false) = true ↔ _
  by_cases h : c104bus c i
  · rw [if_pos ((bus_iff c i).mpr h)]
    simp only [Bool.and_eq_true, Bool.or_eq_true, decide_eq_true_eq, Bool.not_eq_true', decide_eq_false_iff_not, not_lt, gt_iff_lt]
    exact ⟨fun hh => ⟨hh.1, h, hh.2⟩, fun hh => ⟨hh.1, hh.2.2⟩⟩
  · rw [if_neg fun hc => h ((bus_iff c i).mp hc)]
    exact ⟨fun hh => absurd hh (by decide), fun hh => absurd hh.2.1 h⟩

/-- The controller has power when the voltage is in its range and power has not failed, and the motor when the controller has, is enabled and not tripped. -/
theorem c104_power (sin : K → K) (turn : K) (c : Config K) (i : Input K) (s : State K) :
    ((step sin turn c i s).ctl = true ↔ c104bus c i)
      ∧ ((step sin turn c i s).motor = true ↔ c104bus c i ∧ i.enable = true ∧ (step sin turn c i s).tripped = false) := by
  obtain ⟨h1, h2, h3⟩ := buses sin turn c i s
  rw [h1, h2, h3]
  refine ⟨bus_iff c i, ?_⟩
  show ((inRange c.minV (i.override.getD i.voltage) c.maxV && !i.failPower) && i.enable && !(power c i s).tripped) = true ↔ _
  rw [Bool.and_eq_true, Bool.and_eq_true, bus_iff, Bool.not_eq_true', and_assoc]

/-- The trip latches: the controller is tripped just when some pass was too hot and since then power was never lost and the temperature never below the reset. -/
theorem c104_trip (sin : K → K) (turn : K) (c : Config K) (i : ℕ → Input K) (s : State K) (hs : s.tripped = false) (n : ℕ) :
    (run sin turn c i s n).tripped = true ↔ c104hot c i n := by
  induction n with
  | zero =>
    show s.tripped = true ↔ _
    rw [hs]
    exact ⟨fun h => absurd h (by decide), fun ⟨k, hk, _⟩ => absurd hk (by omega)⟩
  | succ n ih =>
    show (step sin turn c (i n) (run sin turn c i s n)).tripped = true ↔ _
    rw [(buses sin turn c (i n) _).1, trip_step, ih]
    constructor
    · rintro ⟨h | ⟨k, hk, h1, h2⟩, h3, h4⟩
      · refine ⟨n, by omega, h, fun j hj hjn => ?_⟩
        have : j = n := by omega
        subst this
        exact ⟨h3, h4⟩
      · refine ⟨k, by omega, h1, fun j hj hjn => ?_⟩
        rcases Nat.lt_or_ge j n with h | h
        · exact h2 j hj h
        · have : j = n := by omega
          subst this
          exact ⟨h3, h4⟩
    · rintro ⟨k, hk, h1, h2⟩
      refine ⟨?_, h2 n (by omega) (by omega)⟩
      rcases Nat.lt_or_ge k n with h | h
      · exact Or.inr ⟨k, h, h1, fun j hj hjn => h2 j hj (by omega)⟩
      · have : k = n := by omega
        subst this
        exact Or.inl h1

private theorem runs_iff (sin : K → K) (turn : K) (c : Config K) (i : Input K) (s : State K) :
    c104runs i (step sin turn c i s) ↔ ((power c i s).motor && decide (fltEps < i.malfSpeed.getD i.command)) = true := by
  unfold c104runs
  rw [(buses sin turn c i s).2.2, Bool.and_eq_true, decide_eq_true_eq]

private theorem stopped (sin : K → K) (turn : K) (c : Config K) (i : Input K) (s : State K) (h : ¬ c104runs i (step sin turn c i s)) :
    filter sin turn c i (power c i s) = { power c i s with
      pulse := 0
      err := 0
      startup := true } := if_neg fun hc => h ((runs_iff sin turn c i s).mpr hc)

/-- The error of the speed that the pass works with. -/
def c104err (sin : K → K) (turn : K) (c : Config K) (i : Input K) (s : State K) : K :=
  let noisy := i.malfSpeed.getD i.command + c.amp * sin (noise turn c i s.phase)
  if noisy > fltEps then (noisy - i.speed) / noisy else -1

private theorem running (sin : K → K) (turn : K) (c : Config K) (i : Input K) (s : State K) (h : c104runs i (step sin turn c i s)) :
    filter sin turn c i (power c i s) = { power c i s with
      phase := noise turn c i s.phase
      err := c104err sin turn c i s
      startup := if |c104err sin turn c i s| > c.cutoff then s.startup else false
      pulse := limitRange 0 (if |c104err sin turn c i s| > c.cutoff
        then s.pulse + c104err sin turn c i s * c.force + c.damp * (-s.err + c104err sin turn c i s) / max |c104err sin turn c i s| (1 / 10000)
        else s.pulse + c104err sin turn c i s * c.force) 1 } := if_pos ((runs_iff sin turn c i s).mp h)

/-- The share of the voltage on the motor is between none and all, so that the voltage of the motor is between none and that of the supply; without a motor to
run both are none, and the next start is a start-up. -/
theorem c104_pulse (sin : K → K) (turn : K) (c : Config K) (i : Input K) (s : State K) :
    let q := step sin turn c i s
    (0 ≤ q.pulse ∧ q.pulse ≤ 1) ∧ q.motorV = q.pulse * c104volts i ∧ (0 ≤ c104volts i → 0 ≤ q.motorV ∧ q.motorV ≤ c104volts i)
      ∧ (¬ c104runs i q → q.pulse = 0 ∧ q.motorV = 0 ∧ q.err = 0 ∧ q.startup = true) := by
  intro q
  have hp : q.pulse = (filter sin turn c i (power c i s)).pulse := rfl
  have hv : q.motorV = q.pulse * c104volts i := rfl
  have hr : 0 ≤ q.pulse ∧ q.pulse ≤ 1 := by
    rw [hp]
    by_cases h : c104runs i (step sin turn c i s)
    · rw [running sin turn c i s h]
      exact ⟨le_max_right _ _, max_le (min_le_right _ _) zero_le_one⟩
    · rw [stopped sin turn c i s h]
      exact ⟨le_rfl, zero_le_one⟩
  refine ⟨hr, hv, fun h0 => ?_, fun h => ?_⟩
  · rw [hv]
    exact ⟨mul_nonneg hr.1 h0, mul_le_of_le_one_left h0 hr.2⟩
  · have e := stopped sin turn c i s h
    have e0 : q.pulse = 0 := by rw [hp, e]
    refine ⟨e0, by rw [hv, e0, zero_mul], ?_, ?_⟩
    · show (filter sin turn c i (power c i s)).err = 0
      rw [e]
    · show (filter sin turn c i (power c i s)).startup = true
      rw [e]

/-- The start-up ends with the first pass near the commanded speed and stays so as long as the motor runs: it is over just when some pass was within the cut-off and
the motor has been run in every pass since.  The current is limited until then. -/
theorem c104_startup (sin : K → K) (turn : K) (c : Config K) (i : ℕ → Input K) (s : State K) (hs : s.startup = true) (n : ℕ) :
    ((run sin turn c i s n).startup = false ↔ ∃ k < n, |(run sin turn c i s (k + 1)).err| ≤ c.cutoff ∧ ∀ j, k ≤ j → j < n → c104runs (i j) (run sin turn c i s (j + 1)))
      ∧ (run sin turn c i s (n + 1)).motorLimit = if (run sin turn c i s (n + 1)).startup then c.limit else 10 ^ 15 := by
  refine ⟨?_, rfl⟩
  induction n with
  | zero =>
    show s.startup = false ↔ _
    rw [hs]
    exact ⟨fun h => absurd h (by decide), fun ⟨k, hk, _⟩ => absurd hk (by omega)⟩
  | succ n ih =>
    have e1 : (run sin turn c i s (n + 1)).startup = (filter sin turn c (i n) (power c (i n) (run sin turn c i s n))).startup := rfl
    have e2 : (run sin turn c i s (n + 1)).err = (filter sin turn c (i n) (power c (i n) (run sin turn c i s n))).err := rfl
    by_cases h : c104runs (i n) (run sin turn c i s (n + 1))
    · have r := running sin turn c (i n) (run sin turn c i s n) h
      rw [r] at e1 e2
      simp only at e1 e2
      rw [e1]
      constructor
      · intro hh
        by_cases hc : |c104err sin turn c (i n) (run sin turn c i s n)| > c.cutoff
        · rw [if_pos hc] at hh
          obtain ⟨k, hk, h1, h2⟩ := ih.mp hh
          refine ⟨k, by omega, h1, fun j hj hjn => ?_⟩
          rcases Nat.lt_or_ge j n with hl | hl
          · exact h2 j hj hl
          · have : j = n := by omega
            subst this
            exact h
        · refine ⟨n, by omega, ?_, fun j hj hjn => ?_⟩
          · rw [e2]; exact not_lt.mp hc
          · have : j = n := by omega
            subst this
            exact h
      · rintro ⟨k, hk, h1, h2⟩
        by_cases hc : |c104err sin turn c (i n) (run sin turn c i s n)| > c.cutoff
        · rw [if_pos hc]
          rcases Nat.lt_or_ge k n with hl | hl
          · exact ih.mpr ⟨k, hl, h1, fun j hj hjn => h2 j hj (by omega)⟩
          · have : k = n := by omega
            subst this
            rw [e2] at h1
            exact absurd hc (not_lt.mpr h1)
        · rw [if_neg hc]
    · have r := stopped sin turn c (i n) (run sin turn c i s n) h
      rw [r] at e1
      rw [e1]
      exact ⟨fun hh => absurd hh (by simp), fun ⟨k, hk, _, h2⟩ => absurd (h2 n (by omega) (by omega)) h⟩

/-- Near the commanded speed the share goes the way of the error: a slow motor gets no less and a fast one no more, and at the speed itself, without noise, the share
stays. -/
theorem c104_control (sin : K → K) (turn : K) (c : Config K) (hf : 0 ≤ c.force) (i : Input K) (s : State K) (hp : 0 ≤ s.pulse ∧ s.pulse ≤ 1)
    (hr : c104runs i (step sin turn c i s)) (hn : c.amp = 0) (hc : |(step sin turn c i s).err| ≤ c.cutoff) :
    (step sin turn c i s).err = (i.malfSpeed.getD i.command - i.speed) / i.malfSpeed.getD i.command
      ∧ (i.speed ≤ i.malfSpeed.getD i.command → s.pulse ≤ (step sin turn c i s).pulse)
      ∧ (i.malfSpeed.getD i.command ≤ i.speed → (step sin turn c i s).pulse ≤ s.pulse) := by
  have r := running sin turn c i s hr
  have e1 : (step sin turn c i s).err = c104err sin turn c i s := by
    show (filter sin turn c i (power c i s)).err = _
    rw [r]
  have e3 : c104err sin turn c i s = (i.malfSpeed.getD i.command - i.speed) / i.malfSpeed.getD i.command := by
    unfold c104err
    simp only
    rw [hn, zero_mul, add_zero]
    exact if_pos hr.2
  rw [e1] at hc
  have e2 : (step sin turn c i s).pulse = limitRange 0 (s.pulse + c104err sin turn c i s * c.force) 1 := by
    show (filter sin turn c i (power c i s)).pulse = _
    rw [r]
    show limitRange 0 (if |c104err sin turn c i s| > c.cutoff then _ else _) 1 = _
    rw [if_neg (not_lt.mpr hc)]
  have hpos : 0 < i.malfSpeed.getD i.command := lt_trans fltEps_pos hr.2
  rw [e1, e2]
  refine ⟨e3, fun h => ?_, fun h => ?_⟩
  · have : 0 ≤ c104err sin turn c i s * c.force := by rw [e3]; exact mul_nonneg (div_nonneg (by linarith) hpos.le) hf
    exact le_trans (le_min (by linarith) hp.2) (le_max_left _ _)
  · have : c104err sin turn c i s * c.force ≤ 0 := by rw [e3]; exact mul_nonpos_of_nonpos_of_nonneg (div_nonpos_of_nonpos_of_nonneg (by linarith) hpos.le) hf
    exact max_le ((min_le_left _ _).trans (by linarith)) hp.1

private theorem noise_turn {turn : K} (ht : 0 < turn) (c : Config K) (i : Input K) (p : K) :
    (0 ≤ noise turn c i p ∧ noise turn c i p < turn) ∧ ∃ m : ℤ, noise turn c i p = p + turn * (c.freq * i.dt) - turn * m := by
  unfold noise
  simp only
  generalize hx : p + turn * c.freq * i.dt = x
  have hx' : p + turn * (c.freq * i.dt) = x := by rw [← hx]; ring
  rw [hx']
  have hq : x = turn * (x / turn) := by field_simp
  unfold fmod
  by_cases h : 0 ≤ x / turn
  · rw [if_pos h]
    have h1 := Int.floor_le (x / turn)
    have h2 := Int.lt_floor_add_one (x / turn)
    have h3 : 0 ≤ x - turn * (⌊x / turn⌋ : K) := by
      have := mul_le_mul_of_nonneg_left h1 ht.le
      linarith
    rw [if_neg (not_lt.mpr h3)]
    refine ⟨⟨h3, ?_⟩, ⌊x / turn⌋, rfl⟩
    have := mul_lt_mul_of_pos_left h2 ht
    linarith
  · rw [if_neg h]
    have h1 := Int.le_ceil (x / turn)
    have h2 := Int.ceil_lt_add_one (x / turn)
    have a1 := mul_le_mul_of_nonneg_left h1 ht.le
    have a2 := mul_lt_mul_of_pos_left h2 ht
    by_cases hz : x - turn * (⌈x / turn⌉ : K) < 0
    · rw [if_pos hz]
      exact ⟨⟨by linarith, by linarith⟩, ⌈x / turn⌉ - 1, by push_cast; ring⟩
    · rw [if_neg hz]
      exact ⟨⟨not_lt.mp hz, by linarith⟩, ⌈x / turn⌉, rfl⟩

/-- The phase of the noise goes on by its frequency for the time, in whole turns less, and is always a part of a turn; it waits while the motor is not run. -/
theorem c104_phase (sin : K → K) {turn : K} (ht : 0 < turn) (c : Config K) (i : Input K) (s : State K) :
    let q := step sin turn c i s
    (c104runs i q → (0 ≤ q.phase ∧ q.phase < turn) ∧ ∃ m : ℤ, q.phase = s.phase + turn * (c.freq * i.dt) - turn * m)
      ∧ (¬ c104runs i q → q.phase = s.phase) := by
  intro q
  have e : q.phase = (filter sin turn c i (power c i s)).phase := rfl
  refine ⟨fun h => ?_, fun h => ?_⟩
  · rw [e, running sin turn c i s h]
    exact noise_turn ht c i s.phase
  · rw [e, stopped sin turn c i s h]
    rfl

/-- A running controller draws, at the voltage that counts, its own power and that of the motor at the share of the voltage; a controller without power draws
next to nothing. -/
theorem c104_draw (sin : K → K) (turn : K) (c : Config K) (i : Input K) (s : State K) :
    let q := step sin turn c i s
    (q.motor = true → dblEps ≤ c104volts i * c104volts i → dblEps ≤ i.motorR → dblEps ≤ c.load / (c104volts i * c104volts i) + q.pulse ^ 2 / i.motorR →
        c104volts i * q.current = c.load + q.motorV ^ 2 / i.motorR ∧ q.heat = c.load + i.motorHeat)
      ∧ (q.ctl = false → q.current = dblEps * i.voltage ∧ q.heat = 0) := by
  intro q
  have eL : loads c i (drive c i (filter sin turn c i (power c i s))) = loads c i q := rfl
  have eC : q.current = (loads c i q).1 / (1 / max dblEps (loads c i q).2.1) := rfl
  have eH : q.heat = (loads c i q).2.2 := rfl
  have hm : q.motor = true → q.ctl = true := fun h => (c104_power sin turn c i s).1.mpr ((c104_power sin turn c i s).2.mp h).1
  refine ⟨fun h h1 h2 h3 => ?_, fun h => ?_⟩
  · have e : loads c i q = (c104volts i, c.load / (c104volts i * c104volts i) + q.pulse * q.pulse / i.motorR, c.load + i.motorHeat) := by
      unfold loads
      simp only [hm h, h, if_true]
      have a1 : max dblEps (i.override.getD i.voltage * i.override.getD i.voltage) = i.override.getD i.voltage * i.override.getD i.voltage := max_eq_right h1
      rw [a1, max_eq_right h2]
      rfl
    rw [eC, eH, e]
    simp only
    rw [max_eq_right (by rw [← sq q.pulse]; exact h3)]
    have hv : c104volts i ≠ 0 := by
      intro h0
      rw [h0, mul_zero] at h1
      exact absurd h1 (not_le.mpr dblEps_pos)
    have hrr : i.motorR ≠ 0 := (lt_of_lt_of_le dblEps_pos h2).ne'
    have hv2 : q.motorV = q.pulse * c104volts i := rfl
    rw [hv2]
    refine ⟨?_, trivial⟩
    field_simp
  · have hmf : q.motor = false := by
      cases hq : q.motor
      · rfl
      · rw [hm hq] at h; exact absurd h (by decide)
    have e : loads c i q = (i.voltage, 0, 0) := by
      unfold loads
      simp only [h, hmf, if_false, Bool.false_eq_true]
    rw [eC, eH, e]
    simp only
    rw [max_eq_left dblEps_pos.le, div_div_eq_mul_div, div_one]
    exact ⟨mul_comm _ _, trivial⟩

/-- The total power that is reported is taken with the voltage of the bus, though under the power malfunction the current is that of the other voltage: with no voltage
on the bus it is nothing, whatever is drawn. -/
theorem c104_override (sin : K → K) (turn : K) (c : Config K) (i : Input K) (s : State K) (hm : (step sin turn c i s).motor = true)
    (hv : dblEps ≤ c104volts i * c104volts i) (hr : dblEps ≤ i.motorR)
    (hg : dblEps ≤ c.load / (c104volts i * c104volts i) + (step sin turn c i s).pulse ^ 2 / i.motorR) :
    totalPower i (step sin turn c i s) = i.voltage / c104volts i * (c.load + (step sin turn c i s).motorV ^ 2 / i.motorR)
      ∧ (i.override = none → totalPower i (step sin turn c i s) = c.load + (step sin turn c i s).motorV ^ 2 / i.motorR) := by
  have h := ((c104_draw sin turn c i s).1 hm hv hr hg).1
  have hv0 : c104volts i ≠ 0 := by
    intro h0
    rw [h0, mul_zero] at hv
    exact absurd hv (not_le.mpr dblEps_pos)
  have e : totalPower i (step sin turn c i s) = i.voltage / c104volts i * (c.load + (step sin turn c i s).motorV ^ 2 / i.motorR) := by
    rw [← h]
    show i.voltage * _ = _
    rw [← mul_assoc, div_mul_cancel₀ _ hv0]
  refine ⟨e, fun hn => ?_⟩
  have hvv : c104volts i = i.voltage := by unfold c104volts; rw [hn]; rfl
  rw [e, hvv, div_self (hvv ▸ hv0), one_mul]

private def cfg : Config ℚ := ⟨1 / 10, 1 / 10, 1 / 4, 400, 350, 90, 130, 10, 0, 0, 5⟩
private def input (temp : ℚ) : Input ℚ := ⟨120, 90, temp, true, 100, false, none, none, 1, 10, 3⟩
private def start : State ℚ := ⟨1 / 2, 0, false, false, false, true, 0, 0, 0, 10 ^ 6, 0, 0⟩

/-- A pass that runs the motor near its speed, and one that trips; the trip stays between the limits. -/
example : (step id 1 cfg (input 300) start).motor = true ∧ (step id 1 cfg (input 300) start).startup = false ∧ (step id 1 cfg (input 300) start).pulse = 51 / 100
    ∧ (step id 1 cfg (input 401) start).tripped = true ∧ (step id 1 cfg (input 380) (step id 1 cfg (input 401) start)).tripped = true
    ∧ (step id 1 cfg (input 349) (step id 1 cfg (input 401) start)).motor = true := by decide +kernel

/-- Power drawn and none reported. -/
example : 0 < (step id 1 cfg { input 300 with
    voltage := 0
    override := some 120 } start).current ∧ totalPower { input 300 with
    voltage := 0
    override := some 120 } (step id 1 cfg { input 300 with
    voltage := 0
    override := some 120 } start) = 0 := by decide +kernel

end Gunns.Props
