import Verif.Sensor.SmokeDetector
import Mathlib.Algebra.Order.Archimedean.Basic
import Mathlib.Tactic.Linarith
import Mathlib.Tactic.Ring
import Mathlib.Tactic.Positivity
import Mathlib.Tactic.NormNum

/-!
# C111: the smoke detector reports the smoke, and its self test ends by itself

The small specification: `c111_on` says when the detector has power, and `c111_after c i dt n s` is
the detector after `n` updates with the same inputs.
-/

set_option linter.unusedSectionVars false

namespace Gunns.Props

open Gunns.Smoke Gunns.Interp

variable {K : Type _} [Field K] [LinearOrder K] [IsStrictOrderedRing K]

/-- It has power, or is stuck on, and has not failed. -/
def c111_on (i : Smoke.In K) : Prop := (i.powered = true ∨ i.malfOn = true) ∧ i.malfFail = false

/-- The detector after `n` updates with the same inputs. -/
def c111_after (c : Smoke.Cfg K) (i : Smoke.In K) (dt : K) : Nat → Smoke.State K → Smoke.State K
  | 0, s => s
  | n + 1, s => Smoke.update c i dt (c111_after c i dt n s)

private theorem c111_limit {a x b : K} (h1 : a ≤ x) (h2 : x ≤ b) : limitRange a x b = x := by
  unfold limitRange
  rw [min_eq_left h2, max_eq_left h1]

private theorem c111_flag (i : Smoke.In K) (h : c111_on i) :
    ((i.powered || i.malfOn) && !i.malfFail) = true := by
  obtain ⟨h1, h2⟩ := h
  rcases h1 with h1 | h1 <;> simp [h1, h2]

private theorem c111_flag_off (i : Smoke.In K) (h : ¬ c111_on i) :
    ((i.powered || i.malfOn) && !i.malfFail) = false := by
  rw [Bool.eq_false_iff]
  intro h'
  apply h
  simpa [c111_on] using h'

private theorem c111_raw_test (c : Smoke.Cfg K) (i : Smoke.In K) (dt : K) (s : Smoke.State K)
    (h : c111_on i) (hb : i.bit = true ∨ s.inProcess = true) :
    Smoke.raw c i dt s = Smoke.performBit c i.bit dt { s with loadOn := true } := by
  have hb' : (i.bit || s.inProcess) = true := by simpa using hb
  simp only [Smoke.raw, c111_flag i h, hb', if_true]

private theorem c111_raw_idle (c : Smoke.Cfg K) (i : Smoke.In K) (dt : K) (s : Smoke.State K)
    (h : c111_on i) (hb : i.bit = false) (hp : s.inProcess = false) :
    Smoke.raw c i dt s = { s with
      loadOn := true
      timer := 0
      obs := c.nomObs + c.contributer * i.smoke
      scat := c.nomScat + (c.scatMax - c.nomScat) * i.smoke } := by
  simp [Smoke.raw, c111_flag i h, hb, hp]

/-- Whatever its state and its inputs, the percentages are within the limits. -/
theorem c111_range {tiny : K} {c : Smoke.Cfg K} (hc : c.Valid tiny) (h0 : 0 ≤ c.scatMax)
    (i : Smoke.In K) (dt : K) (s : Smoke.State K) :
    c.obsMin ≤ (Smoke.update c i dt s).obs ∧ (Smoke.update c i dt s).obs ≤ c.obsMax ∧
      0 ≤ (Smoke.update c i dt s).scat ∧ (Smoke.update c i dt s).scat ≤ c.scatMax := by
  refine ⟨le_max_right _ _, max_le (min_le_right _ _) hc.1.le, le_max_right _ _,
    max_le (min_le_right _ _) h0⟩

/-- With power and no test the scatter goes in a straight line from its nominal value without smoke
to its greatest at full smoke, the obscuration is the limited line through its nominal value, and
the timer of the test is back at zero. -/
theorem c111_smoke {c : Smoke.Cfg K} (h0 : 0 ≤ c.nomScat)
    (hn : c.nomScat ≤ c.scatMax) (i : Smoke.In K) (hi : c111_on i) (hb : i.bit = false)
    (hs0 : 0 ≤ i.smoke) (hs1 : i.smoke ≤ 1) (dt : K) (s : Smoke.State K)
    (hp : s.inProcess = false) :
    (Smoke.update c i dt s).loadOn = true ∧ (Smoke.update c i dt s).timer = 0 ∧
      (Smoke.update c i dt s).inProcess = false ∧
      (Smoke.update c i dt s).scat = (1 - i.smoke) * c.nomScat + i.smoke * c.scatMax ∧
      (c.obsMin ≤ c.nomObs + c.contributer * i.smoke →
        c.nomObs + c.contributer * i.smoke ≤ c.obsMax →
        (Smoke.update c i dt s).obs = c.nomObs + c.contributer * i.smoke) := by
  have e := c111_raw_idle c i dt s hi hb hp
  have h1 : 0 ≤ (c.scatMax - c.nomScat) * i.smoke := mul_nonneg (by linarith) hs0
  have h2 : (c.scatMax - c.nomScat) * i.smoke ≤ c.scatMax - c.nomScat :=
    mul_le_of_le_one_right (by linarith) hs1
  unfold Smoke.update
  rw [e]
  refine ⟨rfl, rfl, hp, ?_, fun ha hb => c111_limit ha hb⟩
  show limitRange 0 (c.nomScat + (c.scatMax - c.nomScat) * i.smoke) c.scatMax = _
  rw [c111_limit (by linarith) (by linarith)]
  ring

/-- Without power it reports the limited values for that, and a test that was going on stands still:
it goes on when the power is back. -/
theorem c111_off (c : Smoke.Cfg K) (i : Smoke.In K) (hi : ¬ c111_on i) (dt : K)
    (s : Smoke.State K) :
    (Smoke.update c i dt s).loadOn = false ∧
      (Smoke.update c i dt s).obs = max (min c.obsOff c.obsMax) c.obsMin ∧
      (Smoke.update c i dt s).scat = max (min c.scatOff c.scatMax) 0 ∧
      (Smoke.update c i dt s).timer = s.timer ∧
      (Smoke.update c i dt s).inProcess = s.inProcess := by
  simp [Smoke.update, Smoke.raw, c111_flag_off i hi, limitRange]

/-- A test that is commanded shows in the same update, at any smoke, and leaves the timer alone. -/
theorem c111_test {tiny : K} {c : Smoke.Cfg K} (hc : c.Valid tiny) (i : Smoke.In K)
    (hi : c111_on i) (hb : i.bit = true) (dt : K) (s : Smoke.State K) :
    (Smoke.update c i dt s).obs = c.obsMax ∧
      (0 ≤ c.bitScat → c.bitScat ≤ c.scatMax → (Smoke.update c i dt s).scat = c.bitScat) ∧
      (Smoke.update c i dt s).timer = s.timer ∧
      ((Smoke.update c i dt s).inProcess = true ↔ s.timer ≤ c.recovery) := by
  have e := c111_raw_test c i dt s hi (Or.inl hb)
  unfold Smoke.update
  rw [e, hb]
  refine ⟨c111_limit hc.1.le le_rfl, fun h1 h2 => c111_limit h1 h2, rfl, ?_⟩
  exact decide_eq_true_iff

private theorem c111_step {tiny : K} {c : Smoke.Cfg K} (hc : c.Valid tiny) (i : Smoke.In K)
    (hi : c111_on i) (hb : i.bit = false) (dt : K) (s : Smoke.State K) (hp : s.inProcess = true) :
    (Smoke.update c i dt s).obs = c.obsMax ∧
      (Smoke.update c i dt s).scat = max c.scatMin 0 ∧
      (Smoke.update c i dt s).timer = s.timer + dt ∧
      ((Smoke.update c i dt s).inProcess = true ↔ s.timer ≤ c.recovery) := by
  have e := c111_raw_test c i dt s hi (Or.inr hp)
  unfold Smoke.update
  rw [e, hb]
  refine ⟨c111_limit hc.1.le le_rfl, ?_, rfl, decide_eq_true_iff⟩
  show limitRange 0 c.scatMin c.scatMax = _
  unfold limitRange
  rw [min_eq_left hc.2.1.le]

/-- After the command is taken away the recovery lasts as long as the timer, from where it stands, is
within the recovery time, and then for one update more; all that time the obscuration is at its
greatest and the scatter at its least, whatever the smoke. -/
theorem c111_recovery {tiny : K} {c : Smoke.Cfg K} (hc : c.Valid tiny) (i : Smoke.In K)
    (hi : c111_on i) (hb : i.bit = false) (dt : K) (s : Smoke.State K)
    (hp : s.inProcess = true) (n : Nat) (hn : ∀ k < n, s.timer + k * dt ≤ c.recovery) :
    (c111_after c i dt n s).inProcess = true ∧ (c111_after c i dt n s).timer = s.timer + n * dt ∧
      (c111_after c i dt (n + 1) s).obs = c.obsMax ∧
      (c111_after c i dt (n + 1) s).scat = max c.scatMin 0 ∧
      ((c111_after c i dt (n + 1) s).inProcess = true ↔ s.timer + n * dt ≤ c.recovery) := by
  have key : (c111_after c i dt n s).inProcess = true ∧
      (c111_after c i dt n s).timer = s.timer + n * dt := by
    induction n with
    | zero => exact ⟨hp, by simp [c111_after]⟩
    | succ n ih =>
      obtain ⟨h1, h2⟩ := ih (fun k hk => hn k (by omega))
      obtain ⟨-, -, h3, h4⟩ := c111_step hc i hi hb dt _ h1
      refine ⟨h4.2 (by rw [h2]; exact hn n (by omega)), ?_⟩
      show (Smoke.update c i dt (c111_after c i dt n s)).timer = _
      rw [h3, h2]
      push_cast
      ring
  obtain ⟨h1, h2, h3, h4⟩ := c111_step hc i hi hb dt _ key.1
  refine ⟨key.1, key.2, h1, h2, ?_⟩
  rw [← key.2]
  exact h4

/-- It always ends: when time goes on the detector is out of the test after some updates, and shows
the smoke again in the next. -/
theorem c111_ends [Archimedean K] {tiny : K} {c : Smoke.Cfg K} (hc : c.Valid tiny)
    (h0 : 0 ≤ c.nomScat) (hm : c.nomScat ≤ c.scatMax) (i : Smoke.In K) (hi : c111_on i)
    (hb : i.bit = false) (hs0 : 0 ≤ i.smoke) (hs1 : i.smoke ≤ 1) {dt : K} (hdt : 0 < dt)
    (s : Smoke.State K) :
    ∃ n, ∀ k ≥ n, (c111_after c i dt k s).inProcess = false ∧
      (c111_after c i dt (k + 1) s).timer = 0 ∧
      (c111_after c i dt (k + 1) s).scat = (1 - i.smoke) * c.nomScat + i.smoke * c.scatMax := by
  have hex : ∃ n, (c111_after c i dt n s).inProcess = false := by
    by_contra hno
    have hall : ∀ n, (c111_after c i dt n s).inProcess = true := by
      intro n
      by_contra h
      exact hno ⟨n, by simpa using h⟩
    have htime : ∀ n : Nat, s.timer + n * dt ≤ c.recovery := by
      intro n
      induction n using Nat.strong_induction_on with
      | _ n ih =>
        exact (c111_recovery hc i hi hb dt s (hall 0) n ih).2.2.2.2.1 (hall (n + 1))
    obtain ⟨n, hn⟩ := Archimedean.arch (c.recovery - s.timer + dt) hdt
    rw [nsmul_eq_mul] at hn
    have := htime n
    linarith
  obtain ⟨n, hn⟩ := hex
  have hstay : ∀ k, n ≤ k → (c111_after c i dt k s).inProcess = false := by
    intro k hk
    induction k, hk using Nat.le_induction with
    | base => exact hn
    | succ k _ ih => exact (c111_smoke h0 hm i hi hb hs0 hs1 dt _ ih).2.2.1
  refine ⟨n, fun k hk => ⟨hstay k hk, ?_⟩⟩
  have h := c111_smoke h0 hm i hi hb hs0 hs1 dt _ (hstay k hk)
  exact ⟨h.2.1, h.2.2.2.1⟩

/-- A test commanded before the timer is back at zero has no recovery of its own: with the timer
past the recovery time, the update after the command is taken away shows the smoke at once. -/
theorem c111_again {tiny : K} {c : Smoke.Cfg K} (hc : c.Valid tiny) (h0 : 0 ≤ c.nomScat)
    (hm : c.nomScat ≤ c.scatMax) (on off : Smoke.In K) (h1 : c111_on on) (h2 : c111_on off)
    (hb1 : on.bit = true) (hb2 : off.bit = false) (hs0 : 0 ≤ off.smoke) (hs1 : off.smoke ≤ 1)
    (dt : K) (s : Smoke.State K) (ht : c.recovery < s.timer) (n : Nat) :
    (c111_after c on dt (n + 1) s).obs = c.obsMax ∧
      (Smoke.update c off dt (c111_after c on dt (n + 1) s)).scat =
        (1 - off.smoke) * c.nomScat + off.smoke * c.scatMax := by
  have ht' : ∀ k, (c111_after c on dt k s).timer = s.timer := by
    intro k
    induction k with
    | zero => rfl
    | succ k ih => exact (c111_test hc on h1 hb1 dt _).2.2.1.trans ih
  obtain ⟨h3, -, -, h4⟩ := c111_test hc on h1 hb1 dt (c111_after c on dt n s)
  refine ⟨h3, (c111_smoke h0 hm off h2 hb2 hs0 hs1 dt _ ?_).2.2.2.1⟩
  rw [Bool.eq_false_iff]
  intro h
  have := h4.1 h
  rw [ht' n] at this
  exact absurd this (not_le.2 ht)

/-! The detector with about its default settings, updated each half second. -/

private def c111_cfg : Smoke.Cfg ℚ := ⟨104, -10, 7, 5 / 2, 1 / 10, 7 / 5, 8, 1 / 6, 3 / 2, 53, 1 / 10⟩

private def c111_in (bit : Bool) : Smoke.In ℚ := ⟨true, false, false, bit, 1 / 2⟩

private def c111_st : Smoke.State ℚ := ⟨true, false, 0, 8, 1 / 6⟩

example : c111_cfg.Valid (1 / 1000000) ∧ 0 ≤ c111_cfg.nomScat ∧
    c111_cfg.nomScat ≤ c111_cfg.scatMax ∧ c111_on (c111_in true) ∧ c111_on (c111_in false) := by
  refine ⟨?_, ?_, ?_, ?_, ?_⟩ <;> norm_num [c111_cfg, Smoke.Cfg.Valid, c111_on, c111_in]

/-- One update of test, then five of recovery at half a second: two seconds and a half where the
recovery time is one and a half. -/
example :
    let s := Smoke.update c111_cfg (c111_in true) (1 / 2) c111_st
    (c111_after c111_cfg (c111_in false) (1 / 2) 5 s).obs = 104 ∧
      (c111_after c111_cfg (c111_in false) (1 / 2) 5 s).timer = 5 / 2 ∧
      (c111_after c111_cfg (c111_in false) (1 / 2) 5 s).inProcess = false ∧
      (c111_after c111_cfg (c111_in false) (1 / 2) 6 s).obs = 23 / 2 := by
  decide +kernel

/-- A second test commanded right then is over as soon as its command is. -/
example :
    let s := Smoke.update c111_cfg (c111_in true) (1 / 2) c111_st
    let t := c111_after c111_cfg (c111_in true) (1 / 2) 3
      (c111_after c111_cfg (c111_in false) (1 / 2) 5 s)
    t.obs = 104 ∧ (Smoke.update c111_cfg (c111_in false) (1 / 2) t).obs = 23 / 2 := by
  decide +kernel

end Gunns.Props
