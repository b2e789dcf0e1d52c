import Mathlib.Data.Rat.Floor
import Verif.Sensor.Lemmas

/-!
# C60: sensors

What an analog sensor shows is in its range and near the truth, and its failures have the order documented.
-/

set_option linter.unusedSectionVars false

namespace Gunns.Props

open Gunns.Sensor Gunns.Sensor.Spec

variable {K : Type _} [Field K] [LinearOrder K] [IsStrictOrderedRing K] [FloorRing K]

/-- A thermometer from -10 to 50 degrees with malfunctions off, for the examples. -/
def thermometer : Analog ℚ where
  failTo := false
  failOff := false
  failStuck := false
  ignorePower := false
  perfect := false
  power := true
  degraded := false
  failToValue := 0
  malfScale := false
  malfScaleValue := 2
  malfBias := false
  malfBiasValue := 1
  malfDrift := false
  malfDriftRate := 1 / 10
  malfNoise := false
  malfNoiseScale := 1
  malfNoiseMult := 1 / 10
  malfResolution := false
  malfResolutionValue := 5
  drift := 0
  minRange := -10
  maxRange := 50
  offValue := -10
  bias := 1 / 4
  scale := 1
  noiseScale := 1 / 10
  noiseMult := 0
  resolution := 1 / 2
  hasNoise := true
  noise := fun k => if k % 2 = 0 then 1 else -1
  calls := 0
  convert := fun x => x - 273
  truthInput := 293
  truthOutput := 0
  sensed := 0

/-- **C60, configuration.**  A sensor initialises exactly if its range is not empty and has the value shown when
off in it; then its first output is that of an update without time (the mark of degradation, which the update
sets, is set before it too). -/
theorem c60_init (s : Analog K) :
    (s.init ≠ none ↔ s.minRange < s.maxRange ∧ s.minRange ≤ s.offValue ∧ s.offValue ≤ s.maxRange) ∧
    (s.minRange < s.maxRange → s.minRange ≤ s.offValue → s.offValue ≤ s.maxRange →
      ∃ d, s.init = some (({ s with degraded := d } : Analog K).update 0)) := by
  have v : s.validate = true ↔ s.minRange < s.maxRange ∧ s.minRange ≤ s.offValue ∧ s.offValue ≤ s.maxRange := by
    unfold Analog.validate
    rw [Bool.and_eq_true, Bool.and_eq_true, Bool.not_eq_true', decide_eq_false_iff_not, decide_eq_true_iff,
      decide_eq_true_iff, not_le]
  unfold Analog.init
  constructor
  · rw [← v]
    by_cases h : s.validate = true
    · rw [if_pos h]
      exact ⟨fun _ => h, fun _ c => by cases c⟩
    · rw [if_neg h]
      exact ⟨fun c => absurd rfl c, fun c => absurd c h⟩
  · intro h1 h2 h3
    exact ⟨_, if_pos (v.2 ⟨h1, h2, h3⟩)⟩

/-- **C60, what is shown when the sensor does not sense.**  A perfect sensor shows the truth within its range,
whatever else is wrong; one that is off its off value; one that is failed to a value this value, within the
range; and one that is stuck what it showed before.  In this order. -/
theorem c60_modes (dt : K) (s : Analog K) (h : s.minRange ≤ s.maxRange) :
    (s.perfect = true → ∃ t, s.update dt = some t ∧
      t.sensed = clamp s.minRange s.maxRange (s.convert (felt s.truthInput))) ∧
    (s.perfect = false → ¬ On s.toBase → s.minRange ≤ s.offValue → s.offValue ≤ s.maxRange →
      ∃ t, s.update dt = some t ∧ t.sensed = s.offValue) ∧
    (s.perfect = false → On s.toBase → s.failTo = true →
      ∃ t, s.update dt = some t ∧ t.sensed = clamp s.minRange s.maxRange s.failToValue) ∧
    (s.perfect = false → On s.toBase → s.failTo = false → s.failStuck = true →
      s.minRange ≤ s.sensed → s.sensed ≤ s.maxRange → ∃ t, s.update dt = some t ∧ t.sensed = s.sensed) := by
  refine ⟨fun h1 => ?_, fun h1 h2 h3 h4 => ?_, fun h1 h2 h3 => ?_, fun h1 h2 h3 h4 h5 h6 => ?_⟩
  · obtain ⟨x, e, c, -⟩ := update_other (timeStep := dt) (s := s)
      (fun c => by have := c.1; rw [h1] at this; cases this)
    refine ⟨_, e, ?_⟩
    simp only
    rw [limitRange_eq h, c h1]
  · obtain ⟨x, e, -, c, -⟩ := update_other (timeStep := dt) (s := s) (fun c => h2 c.2.1)
    refine ⟨_, e, ?_⟩
    simp only
    rw [limitRange_eq h, c h1 h2, clamp_of_mem h3 h4]
  · obtain ⟨x, e, -, -, c, -⟩ := update_other (timeStep := dt) (s := s)
      (fun c => by have := c.2.2.1; rw [h3] at this; cases this)
    refine ⟨_, e, ?_⟩
    simp only
    rw [limitRange_eq h, c h1 h2 h3]
  · obtain ⟨x, e, -, -, -, c⟩ := update_other (timeStep := dt) (s := s)
      (fun c => by have := c.2.2.2; rw [h4] at this; cases this)
    refine ⟨_, e, ?_⟩
    simp only
    rw [limitRange_eq h, c h1 h2 h3, clamp_of_mem h5 h6]

/-- **C60, accuracy.**  A sensor that senses shows the ideal value, limited to its range, but for the noise
(whose values are in [-1, 1]) and half its resolution. -/
theorem c60_accuracy (dt : K) (s t : Analog K) (h : s.minRange ≤ s.maxRange) (hs : Sensing s.toBase)
    (hn : ∀ k, |s.noise k| ≤ 1) (hu : s.update dt = some t) :
    |t.sensed - clamp s.minRange s.maxRange (ideal dt s)| ≤ noiseBound dt s + step s / 2 := by
  obtain ⟨x, y, n, e, b1, -, -, b2, -⟩ := sensing_result hs hu
  rw [e]
  simp only
  rw [limitRange_eq h]
  refine le_trans (clamp_lip h _ _) ?_
  have := abs_add_le (y - x) (x - ideal dt s)
  rw [sub_add_sub_cancel] at this
  linarith [b1 hn]

/-- **C60, exactness.**  Without noise and resolution it shows the ideal value, limited to its range. -/
theorem c60_exact (dt : K) (s t : Analog K) (h : s.minRange ≤ s.maxRange) (hs : Sensing s.toBase)
    (hn : s.hasNoise = false) (hr : step s = 0) (hu : s.update dt = some t) :
    t.sensed = clamp s.minRange s.maxRange (ideal dt s) := by
  obtain ⟨x, y, n, e, -, b1, b2, -⟩ := sensing_result hs hu
  rw [e]
  simp only
  rw [limitRange_eq h, b2 hr, b1 hn]

/-- **C60, the two noises.**  With noise and without resolution, the noise that scales with the signal and the
constant noise are added with two different values of the noise function, each only if its amplitude is above
FLT_EPSILON; no other values are drawn. -/
theorem c60_two_noises (dt : K) (s t : Analog K) (h : s.minRange ≤ s.maxRange) (hs : Sensing s.toBase)
    (hn : s.hasNoise = true) (hr : step s = 0) (hu : s.update dt = some t) :
    let a := (amplitudes s).1 * |ideal dt s - s.offValue|
    let b := (amplitudes s).2
    (1 / 2 ^ 23 < |a| → 1 / 2 ^ 23 < |b| → t.calls = s.calls + 2 ∧
      t.sensed = clamp s.minRange s.maxRange
        (ideal dt s + s.noise s.calls * a + s.noise (s.calls + 1) * b)) ∧
    (1 / 2 ^ 23 < |a| → |b| ≤ 1 / 2 ^ 23 → t.calls = s.calls + 1 ∧
      t.sensed = clamp s.minRange s.maxRange (ideal dt s + s.noise s.calls * a)) ∧
    (|a| ≤ 1 / 2 ^ 23 → 1 / 2 ^ 23 < |b| → t.calls = s.calls + 1 ∧
      t.sensed = clamp s.minRange s.maxRange (ideal dt s + s.noise s.calls * b)) ∧
    (|a| ≤ 1 / 2 ^ 23 → |b| ≤ 1 / 2 ^ 23 → t.calls = s.calls ∧
      t.sensed = clamp s.minRange s.maxRange (ideal dt s)) := by
  have hres : ¬ s.activeResolution > fltEps := by
    intro c
    rw [step_eq, if_pos c] at hr
    exact absurd hr (lt_trans fltEps_pos c).ne'
  rw [update_sensing hs] at hu
  obtain ⟨x, n, e, -⟩ := noisy_frame dt s
  have hx : t.calls = n ∧ t.sensed = clamp s.minRange s.maxRange x := by
    rw [e] at hu
    unfold Analog.applyResolution at hu
    rw [if_neg (show ¬ Analog.activeResolution { s with
      sensed := x
      drift := driftAfter dt s
      calls := n } > fltEps from hres)] at hu
    rw [← Option.some.inj hu]
    exact ⟨rfl, limitRange_eq h x⟩
  have e1 : (s.noisy dt).calls = n := by rw [e]
  have e2 : (s.noisy dt).sensed = x := by rw [e]
  rw [hx.1, hx.2, ← e1, ← e2]
  unfold Analog.noisy Analog.applyNoise
  rw [signal_eq]
  simp only
  rw [if_pos hn]
  have m1 : Analog.activeNoiseMult { s with
      sensed := ideal dt s
      drift := driftAfter dt s } = (amplitudes s).1 := by
    unfold Analog.activeNoiseMult amplitudes
    simp only
    split_ifs <;> rfl
  have m2 : Analog.activeNoiseScale { s with
      sensed := ideal dt s
      drift := driftAfter dt s } = (amplitudes s).2 := by
    unfold Analog.activeNoiseScale amplitudes
    simp only
    split_ifs <;> rfl
  rw [m1, m2]
  unfold Analog.addNoise fltEps
  refine ⟨fun ha hb => ?_, fun ha hb => ?_, fun ha hb => ?_, fun ha hb => ?_⟩
  · simp only [gt_iff_lt, if_pos ha, if_pos hb]
    exact ⟨trivial, trivial⟩
  · simp only [gt_iff_lt, if_pos ha, if_neg (not_lt.2 hb)]
    exact ⟨trivial, trivial⟩
  · simp only [gt_iff_lt, if_neg (not_lt.2 ha), if_pos hb]
    exact ⟨trivial, trivial⟩
  · simp only [gt_iff_lt, if_neg (not_lt.2 ha), if_neg (not_lt.2 hb)]
    exact ⟨trivial, trivial⟩

/-- **C60, resolution.**  What is shown is a whole multiple of the resolution, limited to the range; without
noise it is the multiple nearest to the ideal value. -/
theorem c60_resolution (dt : K) (s t : Analog K) (h : s.minRange ≤ s.maxRange) (hs : Sensing s.toBase)
    (hr : step s ≠ 0) (hu : s.update dt = some t) :
    ∃ k : ℤ, t.sensed = clamp s.minRange s.maxRange (step s * (k : K)) ∧
      (s.hasNoise = false → |step s * (k : K) - ideal dt s| ≤ step s / 2) := by
  obtain ⟨x, y, n, e, -, b1, -, b2, b3⟩ := sensing_result hs hu
  obtain ⟨k, hk⟩ := b3 hr
  refine ⟨k, ?_, fun hn => ?_⟩
  · rw [e]
    simp only
    rw [limitRange_eq h, hk]
  · rw [← b1 hn, ← hk]
    exact b2

/-- The thermometer at 20 degrees, with 0.25 of bias, 0.1 of noise and a resolution of 0.5. -/
example : Sensing thermometer.toBase ∧ (thermometer.update 1).map (fun t => t.sensed) = some (41 / 2) ∧
    ideal 1 thermometer = 81 / 4 ∧ noiseBound 1 thermometer = 1 / 10 ∧ step thermometer = 1 / 2 := by
  unfold Sensing On
  decide +kernel

/-- **C60, range.**  Whatever the sensor, its malfunctions and its input, what it shows after an update is in its
range; and so after any history, in which the range does not change. -/
theorem c60_range (s t : Analog K) (h : s.minRange ≤ s.maxRange) (dt : K) (hu : s.update dt = some t) :
    s.minRange ≤ t.sensed ∧ t.sensed ≤ s.maxRange ∧ t.minRange = s.minRange ∧ t.maxRange = s.maxRange := by
  by_cases hs : Sensing s.toBase
  · obtain ⟨x, y, n, e, -⟩ := sensing_result hs hu
    rw [e]
    simp only
    rw [limitRange_eq h]
    exact ⟨(clamp_mem h _).1, (clamp_mem h _).2, trivial, trivial⟩
  · obtain ⟨x, e, -⟩ := update_other (timeStep := dt) hs
    rw [e] at hu
    rw [← Option.some.inj hu]
    simp only
    rw [limitRange_eq h]
    exact ⟨(clamp_mem h _).1, (clamp_mem h _).2, trivial, trivial⟩

/-- ... over any history: from a sensor that shows a value of its range. -/
theorem c60_range_history (l : List ((Analog K → Analog K) × K)) (hg : ∀ e ∈ l, Outside e.1) (s t : Analog K)
    (h : s.minRange ≤ s.sensed ∧ s.sensed ≤ s.maxRange) (hu : history l s = some t) :
    s.minRange ≤ t.sensed ∧ t.sensed ≤ s.maxRange ∧ t.minRange = s.minRange ∧ t.maxRange = s.maxRange := by
  induction l generalizing s with
  | nil =>
    cases hu
    exact ⟨h.1, h.2, rfl, rfl⟩
  | cons e l ih =>
    obtain ⟨g, dt⟩ := e
    unfold history at hu
    cases hm : (g s).update dt with
    | none => rw [hm] at hu; cases hu
    | some m =>
      rw [hm] at hu
      obtain ⟨o1, o2, -, -⟩ := hg (g, dt) List.mem_cons_self s
      obtain ⟨r1, r2, r3, r4⟩ := c60_range (g s) m (by rw [o1, o2]; exact le_trans h.1 h.2) dt hm
      have := ih (fun e he => hg e (List.mem_cons_of_mem _ he)) m
        ⟨by rw [r3]; exact r1, by rw [r4]; exact r2⟩ hu
      rw [r3, r4, o1, o2] at this
      exact this

/-- **C60, stuck.**  A sensor that is on and stuck, not perfect and not failed to a value, shows what it showed,
over any history. -/
theorem c60_stuck (l : List ((Analog K → Analog K) × K)) (hg : ∀ e ∈ l, Outside e.1)
    (hf : ∀ e ∈ l, ∀ s, (e.1 s).perfect = false ∧ On (e.1 s).toBase ∧ (e.1 s).failTo = false ∧
      (e.1 s).failStuck = true) (s : Analog K) (h : s.minRange ≤ s.sensed ∧ s.sensed ≤ s.maxRange) :
    ∃ t, history l s = some t ∧ t.sensed = s.sensed := by
  induction l generalizing s with
  | nil => exact ⟨s, rfl, rfl⟩
  | cons e l ih =>
    obtain ⟨g, dt⟩ := e
    obtain ⟨o1, o2, o3, -⟩ := hg (g, dt) List.mem_cons_self s
    obtain ⟨f1, f2, f3, f4⟩ := hf (g, dt) List.mem_cons_self s
    simp only at f1 f2 f3 f4 o1 o2 o3
    obtain ⟨m, hm, em⟩ := (c60_modes dt (g s) (by rw [o1, o2]; exact le_trans h.1 h.2)).2.2.2 f1 f2 f3 f4
      (by rw [o1, o3]; exact h.1) (by rw [o2, o3]; exact h.2)
    obtain ⟨-, -, r3, r4⟩ := c60_range (g s) m (by rw [o1, o2]; exact le_trans h.1 h.2) dt hm
    obtain ⟨t, ht, et⟩ := ih (fun e he => hg e (List.mem_cons_of_mem _ he))
      (fun e he => hf e (List.mem_cons_of_mem _ he)) m
      ⟨by rw [r3, em, o1, o3]; exact h.1, by rw [r4, em, o2, o3]; exact h.2⟩
    refine ⟨t, ?_, by rw [et, em, o3]⟩
    unfold history
    rw [hm]
    exact ht

/-- **C60, drift.**  While the sensor senses and the malfunction is active at a rate, the drift grows by the rate
times the time that passes, over any history. -/
theorem c60_drift (rate : K) (l : List ((Analog K → Analog K) × K)) (hg : ∀ e ∈ l, Outside e.1)
    (hf : ∀ e ∈ l, ∀ s, Sensing (e.1 s).toBase ∧ (e.1 s).malfDrift = true ∧ (e.1 s).malfDriftRate = rate)
    (s t : Analog K) (hu : history l s = some t) :
    t.drift = s.drift + rate * (l.map Prod.snd).sum := by
  induction l generalizing s with
  | nil =>
    cases hu
    simp
  | cons e l ih =>
    obtain ⟨g, dt⟩ := e
    unfold history at hu
    cases hm : (g s).update dt with
    | none => rw [hm] at hu; cases hu
    | some m =>
      rw [hm] at hu
      obtain ⟨-, -, -, o4⟩ := hg (g, dt) List.mem_cons_self s
      obtain ⟨f1, f2, f3⟩ := hf (g, dt) List.mem_cons_self s
      simp only at f1 f2 f3 o4
      obtain ⟨x, y, n, e, -⟩ := sensing_result f1 hm
      have em : m.drift = s.drift + rate * dt := by
        rw [e]
        simp only
        unfold driftAfter
        rw [if_pos f2, f3, o4]
      rw [ih (fun e he => hg e (List.mem_cons_of_mem _ he)) (fun e he => hf e (List.mem_cons_of_mem _ he)) m hu, em,
        List.map_cons, List.sum_cons]
      ring

/-- **C60, the end of a drift.**  A sensor that senses without the malfunction has no drift; but one that does not
sense keeps the drift it has, also if the malfunction is removed meanwhile. -/
theorem c60_drift_end (dt : K) (s t : Analog K) (hu : s.update dt = some t) :
    (Sensing s.toBase → s.malfDrift = false → t.drift = 0) ∧ (¬ Sensing s.toBase → t.drift = s.drift) := by
  constructor
  · intro hs hd
    obtain ⟨x, y, n, e, -⟩ := sensing_result hs hu
    rw [e]
    simp only
    unfold driftAfter
    rw [if_neg (by rw [hd]; simp)]
  · intro hs
    obtain ⟨x, e, -⟩ := update_other (timeStep := dt) hs
    rw [e] at hu
    rw [← Option.some.inj hu]

/-- **C60, a drift that outlives its malfunction.**  A drift of 3 degrees is removed while the thermometer is off,
for ten seconds; when the malfunction is put in again and power returns, the drift is 3 degrees and more. -/
theorem c60_drift_kept :
    let off := ({ thermometer with
      power := false
      drift := 3 } : Analog ℚ).update 10
    let on := off.bind fun t => ({ t with
      power := true
      malfDrift := true } : Analog ℚ).update 1
    thermometer.malfDrift = false ∧ on.map (fun t => t.drift) = some (31 / 10) := by
  decide +kernel

/-- **C60, truth and degradation.**  The truth reported is the converted input whatever the malfunctions; and the
sensor reports to be degraded exactly if some malfunction but that of its power is active and it is not
perfect. -/
theorem c60_truth (dt : K) (s t : Analog K) (hu : s.update dt = some t) :
    t.truthOutput = s.convert s.truthInput ∧ (t.degraded = true ↔ Malfunction s ∧ s.perfect = false) := by
  have d : s.determineDegradation = true ↔ Malfunction s ∧ s.perfect = false := by
    unfold Analog.determineDegradation Malfunction
    simp only [Bool.and_eq_true, Bool.or_eq_true, Bool.not_eq_true', or_assoc]
  by_cases hs : Sensing s.toBase
  · obtain ⟨x, y, n, e, -⟩ := sensing_result hs hu
    rw [e]
    exact ⟨rfl, d⟩
  · obtain ⟨x, e, -⟩ := update_other (timeStep := dt) hs
    rw [e] at hu
    rw [← Option.some.inj hu]
    exact ⟨rfl, d⟩

/-- **C60, sensing.**  What a sensor shows is of the truth and the power it is given: the truth is reported; without
power it shows its off value, unless it ignores the power; with power and without failures, noise and resolution it shows
the ideal value of this truth. -/
theorem c60_sense (dt truth : K) (power : Bool) (s t : Analog K) (h : s.minRange ≤ s.maxRange)
    (hu : s.sense dt power truth = some t) :
    t.truthOutput = s.convert truth ∧
    (s.perfect = false → power = false → s.ignorePower = false → s.minRange ≤ s.offValue → s.offValue ≤ s.maxRange →
      t.sensed = s.offValue) ∧
    (s.perfect = false → power = true → s.failOff = false → s.failTo = false → s.failStuck = false →
      s.hasNoise = false → step s = 0 →
      t.sensed = clamp s.minRange s.maxRange (ideal dt { s with truthInput := truth })) := by
  obtain ⟨q, hq⟩ : ∃ q : Analog K, q = { s with
    power := power
    truthInput := truth } := ⟨_, rfl⟩
  have hu' : q.update dt = some t := by rw [hq]; exact hu
  have hr : q.minRange ≤ q.maxRange := by rw [hq]; exact h
  refine ⟨?_, fun h1 h2 h3 h4 h5 => ?_, fun h1 h2 h3 h4 h5 h6 h7 => ?_⟩
  · rw [(c60_truth dt q t hu').1, hq]
  · obtain ⟨t', e1, e2⟩ := (c60_modes dt q hr).2.1 (by rw [hq]; exact h1)
      (by rw [hq]; rintro ⟨c | c, -⟩
          · exact absurd (h2.symm.trans c) Bool.false_ne_true
          · exact absurd (h3.symm.trans c) Bool.false_ne_true)
      (by rw [hq]; exact h4) (by rw [hq]; exact h5)
    rw [hu'] at e1
    rw [Option.some.inj e1, e2, hq]
  · have e := c60_exact dt q t hr (by rw [hq]; exact ⟨h1, ⟨Or.inl h2, h3⟩, h4, h5⟩) (by rw [hq]; exact h6)
      (by rw [hq]; exact h7) hu'
    rw [e, hq]
    rfl

/-- **C60, fine resolution is undefined.**  A sensor that does not sense is always defined, and so is one without a
resolution.  One that senses without noise is undefined exactly if the ideal value is more than `int` can
count in units of its resolution, although the range would limit it. -/
theorem c60_undefined (dt : K) (s : Analog K) :
    (¬ Sensing s.toBase → s.update dt ≠ none) ∧
    (Sensing s.toBase → step s = 0 → s.update dt ≠ none) ∧
    (Sensing s.toBase → s.hasNoise = false → step s ≠ 0 →
      (s.update dt = none ↔
        ideal dt s / step s < -2147483648 - 1 / 2 ∨ 2147483647 + 1 / 2 ≤ ideal dt s / step s)) := by
  refine ⟨fun h => ?_, fun h hr => ?_, fun h hn hr => ?_⟩
  · obtain ⟨x, e, -⟩ := update_other (timeStep := dt) h
    rw [e]
    exact fun c => by cases c
  · rw [update_sensing h]
    obtain ⟨x, n, e, -⟩ := noisy_frame dt s
    rw [e]
    rw [step_eq] at hr
    by_cases c : s.activeResolution > fltEps
    · rw [if_pos c] at hr
      exact absurd hr (lt_trans fltEps_pos c).ne'
    · unfold Analog.applyResolution
      rw [if_neg (show ¬ Analog.activeResolution { s with
        sensed := x
        drift := driftAfter dt s
        calls := n } > fltEps from c)]
      exact fun c => by cases c
  · rw [update_sensing h]
    obtain ⟨x, n, e, -, b⟩ := noisy_frame dt s
    rw [e]
    rw [step_eq] at hr ⊢
    by_cases c : s.activeResolution > fltEps
    · rw [if_pos c]
      unfold Analog.applyResolution
      rw [if_pos (show Analog.activeResolution { s with
        sensed := x
        drift := driftAfter dt s
        calls := n } > fltEps from c), ← b hn, ← round_none]
      have ar : Analog.activeResolution { s with
        sensed := x
        drift := driftAfter dt s
        calls := n } = s.activeResolution := rfl
      rw [ar]
      simp only
      cases Gunns.Sensor.round (x / s.activeResolution) with
      | none => exact ⟨fun _ => rfl, fun _ => rfl⟩
      | some k => exact ⟨(fun c => by cases c), (fun c => by cases c)⟩
    · rw [if_neg c] at hr
      exact absurd rfl hr

/-- A gauge of 101325 Pa with a resolution of 0.00001 Pa. -/
example : ({ thermometer with
    convert := id
    maxRange := 200000
    truthInput := 101325
    hasNoise := false
    resolution := 1 / 100000 } : Analog ℚ).update 1 = none := by
  have h : Sensing ({ thermometer with
    convert := id
    maxRange := 200000
    truthInput := 101325
    hasNoise := false
    resolution := 1 / 100000 } : Analog ℚ).toBase := by
    unfold Sensing On
    decide
  refine ((c60_undefined 1 _).2.2 h rfl ?_).2 (Or.inr ?_)
  · decide +kernel
  · decide +kernel

/-- **C60, switches.**  What a boolean sensor shows: the truth if perfect; else the off value if off, the failed
value if failed, what it showed if stuck, and otherwise the truth.  An analog input is true within the tolerance
of the target. -/
theorem c60_switch (s : BoolBi) (a : BoolAi K) :
    s.update.sensed = (if s.perfect = true then s.truthInput
      else if ¬ On s.toBase then s.offValue
      else if s.failTo = true then s.failToValue
      else if s.failStuck = true then s.sensed else s.truthInput) ∧
    a.update.sensed = (if a.perfect = true then decide (|a.analog - a.target| ≤ a.tolerance)
      else if ¬ On a.toBase then a.offValue
      else if a.failTo = true then a.failToValue
      else if a.failStuck = true then a.sensed else decide (|a.analog - a.target| ≤ a.tolerance)) := by
  have main : ∀ (p : BoolBi → Bool) (s : BoolBi), (s.updateWith p).sensed =
      (if s.perfect = true then p s
      else if ¬ On s.toBase then s.offValue
      else if s.failTo = true then s.failToValue
      else if s.failStuck = true then s.sensed else p s) := by
    intro p s
    unfold BoolBi.updateWith
    simp only
    by_cases h1 : s.perfect = true
    · rw [if_pos h1, if_pos h1]
    · rw [if_neg h1, if_neg h1]
      by_cases h2 : s.toBase.determinePower = true
      · rw [if_pos h2, if_neg (not_not.2 ((determinePower_iff _).1 h2))]
        by_cases h3 : s.failTo = true
        · rw [if_pos h3, if_pos h3]
        · rw [if_neg h3, if_neg h3]
          cases h4 : s.failStuck
          · simp
          · simp
      · rw [if_neg h2, if_pos (fun c => h2 ((determinePower_iff _).2 c))]
  exact ⟨main _ s, main _ a.toBoolBi⟩

/-- **C60, the truth of an analog switch is stale.**  A switch with analog input that does not process its input
(off, failed or stuck) reports the truth of the last time it did, whatever its input is. -/
theorem c60_stale_truth (power : Bool) (x : K) (a : BoolAi K) :
    (Sensing (a.sense power x).toBase ∨ (a.sense power x).perfect = true →
      (a.sense power x).truthInput = decide (|x - a.target| ≤ a.tolerance)) ∧
    (¬ Sensing (a.sense power x).toBase → (a.sense power x).perfect = false →
      (a.sense power x).truthInput = a.truthInput) := by
  unfold BoolAi.sense BoolAi.update BoolBi.updateWith Sensing
  simp only
  by_cases h1 : a.perfect = true
  · rw [if_pos h1]
    refine ⟨fun _ => rfl, fun _ c => ?_⟩
    simp only at c
    rw [h1] at c
    cases c
  · have h1' : a.perfect = false := by rwa [Bool.not_eq_true] at h1
    rw [if_neg h1]
    by_cases h2 : ({ a.toBase with power := power } : Base).determinePower = true
    · rw [if_pos h2]
      have h2' := (determinePower_iff _).1 h2
      by_cases h3 : a.failTo = true
      · rw [if_pos h3]
        refine ⟨fun c => ?_, fun _ _ => rfl⟩
        rcases c with c | c
        · have := c.2.2.1
          simp only at this
          rw [h3] at this
          cases this
        · exact absurd c h1
      · have h3' : a.failTo = false := by rwa [Bool.not_eq_true] at h3
        rw [if_neg h3]
        by_cases h4 : a.failStuck = true
        · rw [if_neg (by rw [h4]; simp)]
          refine ⟨fun c => ?_, fun _ _ => rfl⟩
          rcases c with c | c
          · have := c.2.2.2
            simp only at this
            rw [h4] at this
            cases this
          · exact absurd c h1
        · have h4' : a.failStuck = false := by rwa [Bool.not_eq_true] at h4
          rw [if_pos (by rw [h4']; rfl)]
          exact ⟨fun _ => rfl, fun c _ => absurd ⟨h1', h2', h3', h4'⟩ c⟩
    · rw [if_neg h2]
      refine ⟨fun c => ?_, fun _ _ => rfl⟩
      rcases c with c | c
      · exact absurd ((determinePower_iff _).2 c.2.1) h2
      · exact absurd c h1

/-- **C60, the two switches of a valve.**  If their targets are further apart than their tolerances together, and
both sense, the valve is never shown open and closed at once. -/
theorem c60_valve (power : Bool) (x : K) (s : BoolAi K × BoolAi K)
    (h : s.1.tolerance + s.2.tolerance < |s.1.target - s.2.target|)
    (h1 : Sensing (vlvSense power x s).1.toBase) (h2 : Sensing (vlvSense power x s).2.toBase) :
    ¬ ((vlvSense power x s).1.sensed = true ∧ (vlvSense power x s).2.sensed = true) := by
  have key : ∀ a : BoolAi K, Sensing (a.sense power x).toBase →
      (a.sense power x).sensed = decide (|x - a.target| ≤ a.tolerance) := by
    intro a ha
    have hb : Sensing ({ a with
        power := power
        analog := x } : BoolAi K).toBase := by
      unfold BoolAi.sense BoolAi.update BoolBi.updateWith Sensing at ha
      simp only at ha
      split_ifs at ha <;> exact ha
    obtain ⟨g1, g2, g3, g4⟩ := hb
    unfold BoolAi.sense
    rw [(c60_switch a.toBoolBi ({ a with
        power := power
        analog := x } : BoolAi K)).2, if_neg (by rw [g1]; simp), if_neg (not_not.2 g2),
        if_neg (by rw [g3]; simp), if_neg (by rw [g4]; simp)]
  rintro ⟨c1, c2⟩
  have e1 : (vlvSense power x s).1.sensed = _ := key s.1 h1
  have e2 : (vlvSense power x s).2.sensed = _ := key s.2 h2
  rw [c1] at e1
  rw [c2] at e2
  have d1 := decide_eq_true_iff.1 e1.symm
  have d2 := decide_eq_true_iff.1 e2.symm
  have := abs_sub_le s.1.target x s.2.target
  rw [abs_sub_comm s.1.target x] at this
  linarith

/-- **C60, limit switches.**  One that is not failed and has power shows whether the position is nearer to the
target than the tolerance, or beyond it as seen from zero; one that is failed its failed value, and one without
power its value without power. -/
theorem c60_limit (x : K) (powered failed : Bool) (s : Limit K) :
    ((s.update x powered failed).trueValue = true ↔
      |x - s.target| < s.tolerance ∨ 0 < s.target ∧ s.target < x ∨ s.target < 0 ∧ x < s.target) ∧
    (failed = true → (s.update x powered failed).sensed = s.failedValue) ∧
    (failed = false → powered = false → (s.update x powered failed).sensed = s.notPoweredValue) ∧
    (failed = false → powered = true →
      (s.update x powered failed).sensed = (s.update x powered failed).trueValue) := by
  unfold Limit.update Limit.updateBool
  refine ⟨?_, fun h => ?_, fun h h' => ?_, fun h h' => ?_⟩
  · simp only
    split_ifs with a b c
    · exact ⟨fun _ => Or.inl a, fun _ => rfl⟩
    · exact ⟨fun _ => Or.inr (Or.inl b), fun _ => rfl⟩
    · exact ⟨fun _ => Or.inr (Or.inr c), fun _ => rfl⟩
    · refine ⟨(fun h => by cases h), ?_⟩
      rintro (h | h | h)
      · exact absurd h a
      · exact absurd h b
      · exact absurd h c
  · subst h; simp
  · subst h; subst h'; simp
  · subst h; subst h'; simp

/-- **C60, noise.**  Whatever `rand` gives, the noise is in [-1, 1], at most 100 values of `rand` are drawn for it,
and the numbers made of them, which it divides by and takes the logarithm of, are in (0, 1). -/
theorem c60_noise (lib : NoiseLib K) (rand : ℕ → ℕ) (hr : ∀ k, rand k ≤ lib.randMax) (k : ℕ) :
    |(getNoise lib rand k).1| ≤ 1 ∧ (getNoise lib rand k).2 ≤ k + 100 ∧
    ∀ j, 0 < ((rand j : K) + 1) * (1 / ((lib.randMax : K) + 2)) ∧
      ((rand j : K) + 1) * (1 / ((lib.randMax : K) + 2)) < 1 := by
  have trial : ∀ r1 r2 x, noiseTrial lib r1 r2 = some x → |x| ≤ 1 := by
    intro r1 r2 x h
    unfold noiseTrial at h
    simp only at h
    split_ifs at h with c d
    cases h
    exact d
  have main : ∀ n k, |(noiseLoop lib rand n k).1| ≤ 1 ∧ (noiseLoop lib rand n k).2 ≤ k + 2 * n := by
    intro n
    induction n with
    | zero =>
      intro k
      unfold noiseLoop
      simp
    | succ n ih =>
      intro k
      unfold noiseLoop
      cases h : noiseTrial lib (rand k) (rand (k + 1)) with
      | some x => exact ⟨trial _ _ x h, by simp only; omega⟩
      | none =>
        simp only
        obtain ⟨a, b⟩ := ih (k + 2)
        exact ⟨a, by omega⟩
  refine ⟨(main 50 k).1, (main 50 k).2, fun j => ?_⟩
  have h1 : (0 : K) ≤ (rand j : K) := Nat.cast_nonneg _
  have h2 : (rand j : K) ≤ (lib.randMax : K) := Nat.cast_le.2 (hr j)
  have h3 : (0 : K) < (lib.randMax : K) + 2 := by linarith
  constructor
  · exact mul_pos (by linarith) (by positivity)
  · rw [mul_one_div, div_lt_one h3]
    linarith

end Gunns.Props
