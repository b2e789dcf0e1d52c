import Mathlib.Tactic.Linarith
import Mathlib.Tactic.Ring
import Mathlib.Tactic.FieldSimp
import Verif.Sensor.Spec

/-!
# Lemmas about sensors
-/

set_option linter.unusedSectionVars false

namespace Gunns.Sensor

open Spec

variable {K : Type _} [Field K] [LinearOrder K] [IsStrictOrderedRing K] [FloorRing K]

theorem limitRange_eq {lo hi : K} (h : lo ≤ hi) (x : K) : limitRange lo x hi = clamp lo hi x := by
  unfold limitRange clamp
  by_cases c : x < lo
  · rw [if_pos c, min_eq_left (by linarith), max_eq_right c.le]
  · rw [if_neg c]
    by_cases d : hi < x
    · rw [if_pos d, min_eq_right d.le, max_eq_left h]
    · rw [if_neg d, min_eq_left (not_lt.1 d), max_eq_left (not_lt.1 c)]

theorem clamp_mem {lo hi : K} (h : lo ≤ hi) (x : K) : lo ≤ clamp lo hi x ∧ clamp lo hi x ≤ hi := by
  unfold clamp
  split_ifs with c d
  · exact ⟨le_refl _, h⟩
  · exact ⟨h, le_refl _⟩
  · exact ⟨not_lt.1 c, not_lt.1 d⟩

theorem clamp_of_mem {lo hi x : K} (h1 : lo ≤ x) (h2 : x ≤ hi) : clamp lo hi x = x := by
  unfold clamp
  rw [if_neg (not_lt.2 h1), if_neg (not_lt.2 h2)]

theorem clamp_lip {lo hi : K} (h : lo ≤ hi) (x y : K) : |clamp lo hi x - clamp lo hi y| ≤ |x - y| := by
  unfold clamp
  split_ifs with a b c d e f g i
  all_goals rw [abs_le]
  all_goals
    have h1 := le_abs_self (x - y)
    have h2 := neg_abs_le (x - y)
    have h3 := abs_nonneg (x - y)
    constructor <;> linarith

theorem determinePower_iff (s : Base) : s.determinePower = true ↔ On s := by
  unfold Base.determinePower On
  rw [Bool.and_eq_true, Bool.or_eq_true, Bool.not_eq_true']

/-- What the sensor has before noise and resolution. -/
def Analog.signal (timeStep : K) (s : Analog K) : Analog K :=
  s.processInput.applyScale.applyBias.applyDrift timeStep

theorem signal_eq (timeStep : K) (s : Analog K) : s.signal timeStep =
    { s with
      sensed := ideal timeStep s
      drift := driftAfter timeStep s } := by
  unfold Analog.signal Analog.applyDrift Analog.applyBias Analog.applyScale Analog.processInput ideal driftAfter
    gain offset felt fltMin
  simp only
  cases s.malfScale <;> cases s.malfBias <;> cases s.malfDrift <;> simp <;> ring

/-- The noisy signal. -/
def Analog.noisy (timeStep : K) (s : Analog K) : Analog K := (s.signal timeStep).applyNoise

theorem addNoise_frame (a : K) (s : Analog K) : ∃ (x : K) (n : ℕ), s.addNoise a =
    { s with
      sensed := x
      calls := n } ∧ (∀ B : K, (∀ k, |s.noise k| ≤ B) → |x - s.sensed| ≤ B * |a|) ∧
      (|a| ≤ fltEps → x = s.sensed) := by
  unfold Analog.addNoise
  split_ifs with h
  · refine ⟨_, _, rfl, ?_, fun c => absurd h (not_lt.2 c)⟩
    intro B hB
    rw [add_sub_cancel_left, abs_mul]
    exact mul_le_mul_of_nonneg_right (hB _) (abs_nonneg _)
  · refine ⟨s.sensed, s.calls, rfl, ?_, fun _ => rfl⟩
    intro B hB
    rw [sub_self, abs_zero]
    exact mul_nonneg (le_trans (abs_nonneg _) (hB 0)) (abs_nonneg _)

theorem noisy_frame (timeStep : K) (s : Analog K) : ∃ (x : K) (n : ℕ), s.noisy timeStep =
    { s with
      sensed := x
      drift := driftAfter timeStep s
      calls := n } ∧ ((∀ k, |s.noise k| ≤ 1) → |x - ideal timeStep s| ≤ noiseBound timeStep s) ∧
      (s.hasNoise = false → x = ideal timeStep s) := by
  unfold Analog.noisy Analog.applyNoise
  rw [signal_eq]
  simp only
  by_cases h : s.hasNoise = true
  · rw [if_pos h]
    obtain ⟨x1, n1, e1, b1, -⟩ := addNoise_frame (Analog.activeNoiseMult { s with
      sensed := ideal timeStep s
      drift := driftAfter timeStep s } * |ideal timeStep s - s.offValue|) { s with
      sensed := ideal timeStep s
      drift := driftAfter timeStep s }
    rw [e1]
    obtain ⟨x2, n2, e2, b2, -⟩ := addNoise_frame (Analog.activeNoiseScale { s with
      sensed := ideal timeStep s
      drift := driftAfter timeStep s }) { s with
      sensed := x1
      drift := driftAfter timeStep s
      calls := n1 }
    rw [e2]
    refine ⟨x2, n2, rfl, ?_, (fun c => by rw [h] at c; cases c)⟩
    intro hb
    have c1 := b1 1 hb
    have c2 := b2 1 hb
    rw [one_mul] at c1 c2
    simp only at c1 c2
    unfold noiseBound amplitudes
    rw [if_pos h]
    have t : |x2 - ideal timeStep s| ≤ |x2 - x1| + |x1 - ideal timeStep s| := by
      have := abs_add_le (x2 - x1) (x1 - ideal timeStep s)
      rwa [sub_add_sub_cancel] at this
    have m1 : abs (Analog.activeNoiseMult { s with
      sensed := ideal timeStep s
      drift := driftAfter timeStep s } * abs (ideal timeStep s - s.offValue)) =
        |if s.malfNoise then s.malfNoiseMult else s.noiseMult| * |ideal timeStep s - s.offValue| := by
      rw [abs_mul, abs_abs]
      rfl
    have m2 : abs (Analog.activeNoiseScale { s with
      sensed := ideal timeStep s
      drift := driftAfter timeStep s }) = |if s.malfNoise then s.malfNoiseScale else s.noiseScale| := rfl
    rw [m1] at c1
    rw [m2] at c2
    cases hm : s.malfNoise
    · rw [hm] at c1 c2
      simp only [Bool.false_eq_true, if_false] at c1 c2 ⊢
      linarith
    · rw [hm] at c1 c2
      simp only [if_true] at c1 c2 ⊢
      linarith
  · rw [if_neg h]
    refine ⟨ideal timeStep s, s.calls, rfl, ?_, fun _ => rfl⟩
    intro _
    unfold noiseBound
    rw [if_neg h, sub_self, abs_zero]

/-- The update while sensing. -/
theorem update_sensing {timeStep : K} {s : Analog K} (h : Sensing s.toBase) : s.update timeStep =
    ((s.noisy timeStep).applyResolution).map fun t =>
      { t.processOutput with degraded := t.processOutput.determineDegradation } := by
  obtain ⟨h1, h2, h3, h4⟩ := h
  unfold Analog.update
  simp only
  rw [if_neg (by rw [h1]; simp), if_pos ((determinePower_iff _).2 h2), if_neg (by rw [h3]; simp),
    if_pos (by rw [h4]; rfl)]
  rfl

/-- The update while not sensing. -/
theorem update_other {timeStep : K} {s : Analog K} (h : ¬ Sensing s.toBase) : ∃ x : K, s.update timeStep = some
    { s with
      sensed := limitRange s.minRange x s.maxRange
      truthOutput := s.convert s.truthInput
      degraded := s.determineDegradation } ∧
    (s.perfect = true → x = s.convert (felt s.truthInput)) ∧
    (s.perfect = false → ¬ On s.toBase → x = s.offValue) ∧
    (s.perfect = false → On s.toBase → s.failTo = true → x = s.failToValue) ∧
    (s.perfect = false → On s.toBase → s.failTo = false → x = s.sensed) := by
  unfold Analog.update
  simp only
  by_cases h1 : s.perfect = true
  · rw [if_pos h1]
    refine ⟨_, rfl, fun _ => rfl, fun c => ?_, fun c => ?_, fun c => ?_⟩
    all_goals rw [h1] at c; cases c
  · have h1' : s.perfect = false := by rwa [Bool.not_eq_true] at h1
    rw [if_neg h1]
    by_cases h2 : s.toBase.determinePower = true
    · rw [if_pos h2]
      have h2' := (determinePower_iff _).1 h2
      by_cases h3 : s.failTo = true
      · rw [if_pos h3]
        refine ⟨_, rfl, fun c => absurd c h1, fun _ c => absurd h2' c, fun _ _ _ => rfl, fun _ _ c => ?_⟩
        rw [h3] at c; cases c
      · have h3' : s.failTo = false := by rwa [Bool.not_eq_true] at h3
        rw [if_neg h3]
        have h4 : s.failStuck = true := by
          by_contra c
          exact h ⟨h1', h2', h3', by rwa [Bool.not_eq_true] at c⟩
        rw [if_neg (by rw [h4]; simp)]
        exact ⟨_, rfl, fun c => absurd c h1, fun _ c => absurd h2' c, fun _ _ c => absurd c h3,
          fun _ _ _ => rfl⟩
    · rw [if_neg h2]
      have h2' : ¬ On s.toBase := fun c => h2 ((determinePower_iff _).2 c)
      exact ⟨_, rfl, fun c => absurd c h1, fun _ _ => rfl, fun _ c => absurd c h2', fun _ c => absurd c h2'⟩

theorem round_eq {x : K} {n : ℤ} (h : round x = some n) : (n : K) ≤ x + 1 / 2 ∧ x + 1 / 2 < n + 1 ∧
    -2147483648 ≤ n ∧ n ≤ 2147483647 := by
  unfold round at h
  simp only at h
  split_ifs at h with c
  cases h
  exact ⟨Int.floor_le _, Int.lt_floor_add_one _, c.1, c.2⟩

theorem round_none {x : K} : round x = none ↔ x < -2147483648 - 1 / 2 ∨ 2147483647 + 1 / 2 ≤ x := by
  unfold round
  simp only
  split_ifs with c
  · refine ⟨(fun h => by cases h), ?_⟩
    have h1 : ((-2147483648 : ℤ) : K) ≤ x + 1 / 2 := Int.le_floor.1 c.1
    have h2 : x + 1 / 2 < ((2147483647 : ℤ) : K) + 1 := by
      have := Int.floor_lt (a := x + 1 / 2) (z := 2147483648)
      have h3 := this.1 (by omega)
      push_cast at h3 ⊢
      linarith
    push_cast at h1 h2
    rintro (d | d) <;> linarith
  · refine ⟨fun _ => ?_, fun _ => rfl⟩
    by_contra d
    push Not at d
    apply c
    constructor
    · apply Int.le_floor.2
      push_cast
      linarith
    · have : ⌊x + 1 / 2⌋ < 2147483648 := by
        apply Int.floor_lt.2
        push_cast
        linarith
      omega

theorem step_eq (s : Analog K) : step s = if s.activeResolution > fltEps then s.activeResolution else 0 := rfl

/-- The whole update while sensing. -/
theorem sensing_result {timeStep : K} {s t : Analog K} (h : Sensing s.toBase) (hu : s.update timeStep = some t) :
    ∃ (x y : K) (n : ℕ), t = { s with
      sensed := limitRange s.minRange y s.maxRange
      drift := driftAfter timeStep s
      calls := n
      truthOutput := s.convert s.truthInput
      degraded := s.determineDegradation } ∧
      ((∀ k, |s.noise k| ≤ 1) → |x - ideal timeStep s| ≤ noiseBound timeStep s) ∧
      (s.hasNoise = false → x = ideal timeStep s) ∧
      (step s = 0 → y = x) ∧ |y - x| ≤ step s / 2 ∧ (step s ≠ 0 → ∃ k : ℤ, y = step s * (k : K)) := by
  rw [update_sensing h] at hu
  obtain ⟨x, n, e, b1, b2⟩ := noisy_frame timeStep s
  rw [e] at hu
  rw [step_eq]
  unfold Analog.applyResolution at hu
  have ar : Analog.activeResolution { s with
      sensed := x
      drift := driftAfter timeStep s
      calls := n } = s.activeResolution := rfl
  rw [ar] at hu
  simp only at hu
  by_cases c : s.activeResolution > fltEps
  · have hp : 0 < s.activeResolution := lt_trans fltEps_pos c
    rw [if_pos c] at hu ⊢
    rw [Option.map_map] at hu
    cases hr : round (x / s.activeResolution) with
    | none => rw [hr] at hu; cases hu
    | some k =>
      rw [hr] at hu
      obtain ⟨r1, r2, -⟩ := round_eq hr
      refine ⟨x, s.activeResolution * (k : K), n, (Option.some.inj hu).symm, b1, b2, fun z => absurd z hp.ne', ?_,
        fun _ => ⟨k, rfl⟩⟩
      have ex : x = s.activeResolution * (x / s.activeResolution) := by field_simp
      rw [abs_le]
      constructor
      · have h1 : x / s.activeResolution - (k : K) ≤ 1 / 2 := by linarith
        have := mul_le_mul_of_nonneg_left h1 hp.le
        rw [mul_sub, ← ex] at this
        linarith
      · have h1 : (k : K) - x / s.activeResolution ≤ 1 / 2 := by linarith
        have := mul_le_mul_of_nonneg_left h1 hp.le
        rw [mul_sub, ← ex] at this
        linarith
  · rw [if_neg c] at hu ⊢
    refine ⟨x, x, n, (Option.some.inj hu).symm, b1, b2, fun _ => rfl, by simp, fun z => absurd rfl z⟩

end Gunns.Sensor
