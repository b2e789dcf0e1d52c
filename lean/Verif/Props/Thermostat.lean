import Verif.Control.ThermostatSpec
import Mathlib.Data.Rat.Floor
import Mathlib.Tactic.Linarith
import Mathlib.Tactic.Ring

/-!
# C62: Thermostats keep temperatures between their setpoints

The commands of a thermostat over a run, by what its sensors read (`Verif.Control.ThermostatSpec`).
-/

namespace Gunns.Props

open Gunns.Control Gunns.Control.Spec Gunns.Sensor

set_option linter.unusedSectionVars false

variable {K : Type _} [Field K] [LinearOrder K] [IsStrictOrderedRing K] [FloorRing K]

/-- What `readSensors` gives. -/
private theorem read_eq (s : Thermostat K) (status : Bool) :
    s.readSensors status = true ↔
      if s.logic = .and then ∀ x ∈ s.sensors, x.sensed ≤ s.high ∧ (x.sensed < s.low ∨ status = true)
      else ∃ x ∈ s.sensors, x.sensed ≤ s.high ∧ (x.sensed < s.low ∨ status = true) := by
  have ev : ∀ y : K, s.evaluateAgainstSetpoints status y = true ↔ y ≤ s.high ∧ (y < s.low ∨ status = true) := by
    intro y
    unfold Thermostat.evaluateAgainstSetpoints
    by_cases h1 : y > s.high
    · rw [if_pos h1]
      exact ⟨(fun c => by cases c), fun c => absurd c.1 (not_le.2 h1)⟩
    · rw [if_neg h1]
      by_cases h2 : y < s.low
      · rw [if_pos h2]
        exact ⟨fun _ => ⟨not_lt.1 h1, Or.inl h2⟩, fun _ => rfl⟩
      · rw [if_neg h2]
        exact ⟨fun c => ⟨not_lt.1 h1, Or.inr c⟩, fun c => c.2.resolve_left h2⟩
  unfold Thermostat.readSensors
  generalize s.sensors = l
  by_cases hl : s.logic = .and
  · rw [if_pos hl]
    have hp : s.primary = false := by unfold Thermostat.primary; rw [if_pos hl]
    have hs : s.secondary = true := by unfold Thermostat.secondary; rw [if_pos hl]
    induction l with
    | nil =>
      unfold Thermostat.readLoop
      rw [hs]
      exact ⟨fun _ x hx => absurd hx List.not_mem_nil, fun _ => rfl⟩
    | cons x l ih =>
      unfold Thermostat.readLoop
      rw [hp]
      by_cases hx : s.evaluateAgainstSetpoints status x.sensed = true
      · rw [hx, if_neg (by decide)]
        refine ih.trans ?_
        constructor
        · intro h y hy
          rcases List.mem_cons.1 hy with rfl | hy
          · exact (ev _).1 hx
          · exact h y hy
        · exact fun h y hy => h y (List.mem_cons_of_mem _ hy)
      · rw [if_pos (Bool.eq_false_iff.2 hx).symm]
        exact ⟨(fun c => by cases c), fun h => absurd ((ev _).2 (h x List.mem_cons_self)) hx⟩
  · rw [if_neg hl]
    have hp : s.primary = true := by unfold Thermostat.primary; rw [if_neg hl]
    have hs : s.secondary = false := by unfold Thermostat.secondary; rw [if_neg hl]
    induction l with
    | nil =>
      unfold Thermostat.readLoop
      rw [hs]
      exact ⟨(fun c => by cases c), fun ⟨x, hx, _⟩ => absurd hx List.not_mem_nil⟩
    | cons x l ih =>
      unfold Thermostat.readLoop
      rw [hp]
      by_cases hx : s.evaluateAgainstSetpoints status x.sensed = true
      · rw [if_pos hx.symm]
        exact ⟨fun _ => ⟨x, List.mem_cons_self, (ev _).1 hx⟩, fun _ => rfl⟩
      · rw [if_neg (fun c => hx c.symm)]
        refine ih.trans ?_
        constructor
        · rintro ⟨y, hy, h⟩
          exact ⟨y, List.mem_cons_of_mem _ hy, h⟩
        · rintro ⟨y, hy, h⟩
          rcases List.mem_cons.1 hy with rfl | hy
          · exact absurd ((ev _).2 h) hx
          · exact ⟨y, hy, h⟩

/-- `readSensors` depends on the logic, the sensors and the setpoints. -/
private theorem read_congr {s t : Thermostat K} {status : Bool} (h1 : s.logic = t.logic) (h2 : s.sensors = t.sensors)
    (h3 : s.low = t.low) (h4 : s.high = t.high) : s.readSensors status = t.readSensors status := by
  rw [Bool.eq_iff_iff, read_eq, read_eq, h1, h2, h3, h4]

/-- The rule of a command with setpoints in order. -/
private theorem rule (s : Thermostat K) (low high : K) (status : Bool) (h : low ≤ high) :
    ((if s.logic = .and then ∀ x ∈ s.sensors, x.sensed ≤ high ∧ (x.sensed < low ∨ status = true)
      else ∃ x ∈ s.sensors, x.sensed ≤ high ∧ (x.sensed < low ∨ status = true)) ↔
    Cold low s ∨ status = true ∧ NotHot high s) := by
  unfold Cold NotHot
  by_cases hl : s.logic = .and
  · rw [if_pos hl, if_pos hl, if_pos hl]
    cases status
    · constructor
      · exact fun g => Or.inl fun x hx => (g x hx).2.resolve_right (by decide)
      · rintro (g | ⟨g, -⟩)
        · exact fun x hx => ⟨(g x hx).le.trans h, Or.inl (g x hx)⟩
        · cases g
    · constructor
      · exact fun g => Or.inr ⟨rfl, fun x hx => (g x hx).1⟩
      · rintro (g | ⟨-, g⟩)
        · exact fun x hx => ⟨(g x hx).le.trans h, Or.inr rfl⟩
        · exact fun x hx => ⟨g x hx, Or.inr rfl⟩
  · rw [if_neg hl, if_neg hl, if_neg hl]
    cases status
    · constructor
      · rintro ⟨x, hx, -, g⟩
        exact Or.inl ⟨x, hx, g.resolve_right (by decide)⟩
      · rintro (⟨x, hx, g⟩ | ⟨g, -⟩)
        · exact ⟨x, hx, g.le.trans h, Or.inl g⟩
        · cases g
    · constructor
      · rintro ⟨x, hx, g, -⟩
        exact Or.inr ⟨rfl, x, hx, g⟩
      · rintro (⟨x, hx, g⟩ | ⟨-, x, hx, g⟩)
        · exact ⟨x, hx, g.le.trans h, Or.inr rfl⟩
        · exact ⟨x, hx, g, Or.inr rfl⟩

/-- An update as a record. -/
private theorem update_form {dt : K} {s t : Thermostat K} (hu : s.update dt = some t) :
    ∃ (l : List (Analog K)) (N C : Bool),
      N = ({ s with
        sensors := l
        low := s.nominalLow + (s.setpt - s.nominalSetpt)
        high := s.nominalHigh + (s.setpt - s.nominalSetpt) } : Thermostat K).readSensors s.nominal ∧
      C = ({ s with
        sensors := l
        low := if s.malfLow then s.malfLowValue else s.nominalLow + (s.setpt - s.nominalSetpt)
        high := if s.malfHigh then s.malfHighValue else s.nominalHigh + (s.setpt - s.nominalSetpt)
        } : Thermostat K).readSensors (if s.malfLow || s.malfHigh then s.command else s.nominal) ∧
      t = { s with
        sensors := l
        bias := s.setpt - s.nominalSetpt
        low := if s.malfLow then s.malfLowValue else s.nominalLow + (s.setpt - s.nominalSetpt)
        high := if s.malfHigh then s.malfHighValue else s.nominalHigh + (s.setpt - s.nominalSetpt)
        nominal := N
        command := C
        actual := if s.malfOff then false else if s.malfOn then true else if s.kill then false else C } := by
  unfold Thermostat.update at hu
  cases hs : updateSensors dt s.sensors with
  | none => rw [hs] at hu; cases hu
  | some l =>
    rw [hs, Option.map_some] at hu
    have hu := Option.some.inj hu
    refine ⟨l, t.nominal, t.command, ?_, ?_, ?_⟩
    · rw [← hu]
      obtain ⟨mon, moff, kill, act, nom, sen, ml, mh, mlv, mhv, lg, cmd, bias, setpt, lo, hi, nsp, nlo, nhi⟩ := s
      cases ml <;> cases mh <;> exact read_congr rfl rfl rfl rfl
    · rw [← hu]
      obtain ⟨mon, moff, kill, act, nom, sen, ml, mh, mlv, mhv, lg, cmd, bias, setpt, lo, hi, nsp, nlo, nhi⟩ := s
      cases ml <;> cases mh <;> exact read_congr rfl rfl rfl rfl
    · rw [← hu]
      obtain ⟨mon, moff, kill, act, nom, sen, ml, mh, mlv, mhv, lg, cmd, bias, setpt, lo, hi, nsp, nlo, nhi⟩ := s
      cases ml <;> cases mh <;> rfl

/-- What an update does to what the specification speaks of. -/
private theorem update_facts {dt : K} {s t : Thermostat K} (hr : Ready s) (hu : s.update dt = some t) :
    t.logic = s.logic ∧ t.nominalLow = s.nominalLow ∧ t.nominalHigh = s.nominalHigh ∧
    t.nominalSetpt = s.nominalSetpt ∧ t.setpt = s.setpt ∧
    t.malfLow = s.malfLow ∧ t.malfHigh = s.malfHigh ∧ t.malfOn = s.malfOn ∧ t.malfOff = s.malfOff ∧ t.kill = s.kill ∧
    t.malfLowValue = s.malfLowValue ∧ t.malfHighValue = s.malfHighValue ∧
    t.low = (if s.malfLow then s.malfLowValue else lowOf s) ∧
    t.high = (if s.malfHigh then s.malfHighValue else highOf s) ∧
    (t.nominal = true ↔ Cold (lowOf t) t ∨ s.nominal = true ∧ NotHot (highOf t) t) ∧
    (t.command = true ↔
      if t.logic = .and then ∀ x ∈ t.sensors, x.sensed ≤ t.high ∧
        (x.sensed < t.low ∨ (if s.malfLow || s.malfHigh then s.command else s.nominal) = true)
      else ∃ x ∈ t.sensors, x.sensed ≤ t.high ∧
        (x.sensed < t.low ∨ (if s.malfLow || s.malfHigh then s.command else s.nominal) = true)) ∧
    t.actual = (if t.malfOff then false else if t.malfOn then true else if t.kill then false else t.command) := by
  obtain ⟨l, N, C, hN, hC, rfl⟩ := update_form hu
  have e1 : s.nominalLow + (s.setpt - s.nominalSetpt) = lowOf s := by
    unfold lowOf
    rw [hr.2]
    ring
  have e2 : s.nominalHigh + (s.setpt - s.nominalSetpt) = highOf s := by
    unfold highOf
    rw [hr.2]
    ring
  have lh : lowOf s ≤ highOf s := by
    unfold lowOf highOf
    linarith [hr.1]
  rw [e1, e2] at hN hC
  refine ⟨rfl, rfl, rfl, rfl, rfl, rfl, rfl, rfl, rfl, rfl, rfl, rfl, ?_, ?_, ?_, ?_, rfl⟩
  · simp only [e1]
  · simp only [e2]
  · simp only
    rw [hN, read_eq]
    exact rule _ (lowOf s) (highOf s) s.nominal lh
  · simp only
    rw [hC, read_eq, e1, e2]

/-- A run keeps the thermostat ready. -/
private theorem run_facts {N : ℕ} {s : ℕ → Thermostat K} (hrun : Run N s) (h0 : Ready (s 0)) :
    ∀ n, n ≤ N → Ready (s n) ∧ (s n).logic = (s 0).logic := by
  intro n
  induction n with
  | zero => exact fun _ => ⟨h0, rfl⟩
  | succ n ih =>
    intro hn
    obtain ⟨h, hl⟩ := ih (by omega)
    obtain ⟨t, dt, ho, hu⟩ := hrun n (by omega)
    have hr : Ready t := by
      unfold Ready
      rw [ho.2.1, ho.2.2.1, ho.2.2.2.1]
      exact h
    obtain ⟨f1, f2, f3, f4, -⟩ := update_facts hr hu
    refine ⟨?_, ?_⟩
    · unfold Ready
      rw [f2, f3, f4]
      exact hr
    · rw [f1, ho.1, hl]

/-- **C62, configuration.**  A thermostat is accepted exactly if it is not commanded on and off by malfunctions, has a
sensor, has logic for more than one of them, has setpoints in order, also those of the malfunctions, and its sensor
is accepted.  Then it has that many sensors and is off, with the setpoint in the middle. -/
theorem c62_init (c : ThermostatData K) :
    (Thermostat.init c ≠ none ↔ ¬ (c.malfOn = true ∧ c.malfOff = true) ∧ 1 ≤ c.count ∧
      (c.count = 1 ∨ c.logic ≠ .single) ∧ c.low < c.high ∧ c.malfLowValue < c.malfHighValue ∧ c.sensor.init ≠ none) ∧
    ∀ s, Thermostat.init c = some (some s) → Ready s ∧ s.nominal = false ∧ s.command = false ∧ s.actual = false ∧
      (s.sensors.length : ℤ) = c.count ∧ lowOf s = c.low ∧ highOf s = c.high ∧ s.logic = c.logic := by
  unfold Thermostat.init
  by_cases h1 : c.malfOn = true ∧ c.malfOff = true
  · rw [if_pos h1]
    exact ⟨⟨fun h => absurd rfl h, fun h => absurd h1 h.1⟩, (fun s h => by cases h)⟩
  rw [if_neg h1]
  by_cases h2 : c.count < 1
  · rw [if_pos h2]
    exact ⟨⟨fun h => absurd rfl h, fun h => absurd h.2.1 (by omega)⟩, (fun s h => by cases h)⟩
  rw [if_neg h2]
  by_cases h3 : c.count > 1 ∧ c.logic = .single
  · rw [if_pos h3]
    refine ⟨⟨fun h => absurd rfl h, fun h => ?_⟩, (fun s h => by cases h)⟩
    rcases h.2.2.1 with g | g
    · exact absurd h3.1 (by omega)
    · exact absurd h3.2 g
  rw [if_neg h3]
  by_cases h4 : c.low ≥ c.high
  · rw [if_pos h4]
    exact ⟨⟨fun h => absurd rfl h, fun h => absurd h.2.2.2.1 (not_lt.2 h4)⟩, (fun s h => by cases h)⟩
  rw [if_neg h4]
  by_cases h5 : c.malfLowValue ≥ c.malfHighValue
  · rw [if_pos h5]
    exact ⟨⟨fun h => absurd rfl h, fun h => absurd h.2.2.2.2.1 (not_lt.2 h5)⟩, (fun s h => by cases h)⟩
  rw [if_neg h5]
  have h3' : c.count = 1 ∨ c.logic ≠ .single := by
    by_cases g : c.logic = .single
    · left
      by_contra k
      exact h3 ⟨by omega, g⟩
    · exact Or.inr g
  cases h6 : c.sensor.init with
  | none => exact ⟨⟨fun h => absurd rfl h, fun h => absurd rfl h.2.2.2.2.2⟩, (fun s h => by cases h)⟩
  | some o =>
    cases o with
    | none =>
      exact ⟨⟨fun _ => ⟨h1, by omega, h3', not_le.1 h4, not_le.1 h5, (fun h => by cases h)⟩,
        (fun _ h => by cases h)⟩, (fun s h => by cases h)⟩
    | some x =>
      refine ⟨⟨fun _ => ⟨h1, by omega, h3', not_le.1 h4, not_le.1 h5, (fun h => by cases h)⟩,
        (fun _ h => by cases h)⟩, fun s h => ?_⟩
      have h := Option.some.inj (Option.some.inj h)
      subst h
      refine ⟨⟨not_le.1 h4, by norm_num; ring⟩, rfl, rfl, rfl, ?_, ?_, ?_, rfl⟩
      · rw [List.length_replicate]
        omega
      · unfold lowOf
        norm_num
        ring
      · unfold highOf
        norm_num
        ring

/-- The sensors are updated one by one. -/
private theorem sensors_eq {dt : K} : ∀ {l m : List (Analog K)}, updateSensors dt l = some m →
    List.Forall₂ (fun x y => x.update dt = some y) l m
  | [], m, h => by
    have h := Option.some.inj h
    subst h
    exact List.Forall₂.nil
  | x :: l, m, h => by
    unfold updateSensors at h
    cases hx : x.update dt with
    | none => rw [hx] at h; cases h
    | some y =>
      rw [hx, Option.bind_some] at h
      cases hl : updateSensors dt l with
      | none => rw [hl] at h; cases h
      | some m' =>
        rw [hl] at h
        have h := Option.some.inj h
        subst h
        exact List.Forall₂.cons hx (sensors_eq hl)

/-- **C62, the sensors.**  An update updates each sensor once, with the input it has; their readings are then judged. -/
theorem c62_sensors (dt : K) (s t : Thermostat K) (hu : s.update dt = some t) :
    List.Forall₂ (fun x y => x.update dt = some y) s.sensors t.sensors := by
  unfold Thermostat.update at hu
  cases hs : updateSensors dt s.sensors with
  | none => rw [hs] at hu; cases hu
  | some l =>
    rw [hs, Option.map_some] at hu
    have hu := Option.some.inj hu
    have : t.sensors = l := by
      rw [← hu]
      obtain ⟨mon, moff, kill, act, nom, sen, ml, mh, mlv, mhv, lg, cmd, bias, setpt, lo, hi, nsp, nlo, nhi⟩ := s
      cases ml <;> cases mh <;> rfl
    rw [this]
    exact sensors_eq hs

/-- **C62, moving the setpoints.**  Setting the temperature puts it in the middle of the setpoints, setting the bias
moves both by it from where they were configured; the width between them stays, and nothing else changes. -/
theorem c62_setpoints (s : Thermostat K) (x : K) (hr : Ready s) :
    lowOf (s.setTemperatureSetpt x) = x - (s.nominalHigh - s.nominalLow) / 2 ∧
    highOf (s.setTemperatureSetpt x) = x + (s.nominalHigh - s.nominalLow) / 2 ∧
    lowOf (s.setCommandSetptBias x) = s.nominalLow + x ∧ highOf (s.setCommandSetptBias x) = s.nominalHigh + x ∧
    Outside s (s.setTemperatureSetpt x) ∧ Outside s (s.setCommandSetptBias x) := by
  refine ⟨rfl, rfl, ?_, ?_, ⟨rfl, rfl, rfl, rfl, rfl, rfl, rfl⟩, rfl, rfl, rfl, rfl, rfl, rfl, rfl⟩
  · show s.nominalSetpt + x - (s.nominalHigh - s.nominalLow) / 2 = _
    rw [hr.2]
    ring
  · show s.nominalSetpt + x + (s.nominalHigh - s.nominalLow) / 2 = _
    rw [hr.2]
    ring

/-- **C62, the nominal command.**  Over any run, whatever the malfunctions and however the setpoint is moved, the
nominal command is on exactly if at some time the sensors were cold enough (one below the low setpoint, for AND
logic all) and at no time since then too hot (all above the high setpoint, for AND logic one). -/
theorem c62_since (N : ℕ) (s : ℕ → Thermostat K) (hrun : Run N s) (h0 : Ready (s 0)) (hoff : (s 0).nominal = false)
    (n : ℕ) (hn : n ≤ N) :
    (s n).nominal = true ↔ Since (fun i => lowOf (s i)) (fun i => highOf (s i)) s n := by
  induction n with
  | zero =>
    rw [hoff]
    exact ⟨(fun h => by cases h), fun ⟨i, h1, h2, _⟩ => by omega⟩
  | succ n ih =>
    have ih := ih (by omega)
    obtain ⟨t, dt, ho, hu⟩ := hrun n (by omega)
    have hr : Ready t := by
      unfold Ready
      rw [ho.2.1, ho.2.2.1, ho.2.2.2.1]
      exact (run_facts hrun h0 n (by omega)).1
    obtain ⟨-, -, -, -, -, -, -, -, -, -, -, -, -, -, f, -⟩ := update_facts hr hu
    rw [f, ho.2.2.2.2.1, ih]
    have hr' := (run_facts hrun h0 (n + 1) hn).1
    have lh : lowOf (s (n + 1)) ≤ highOf (s (n + 1)) := by
      unfold lowOf highOf
      linarith [hr'.1]
    constructor
    · rintro (h | ⟨⟨i, h1, h2, h3, h4⟩, h⟩)
      · refine ⟨n + 1, by omega, le_refl _, h, fun j hj1 hj2 => ?_⟩
        have : j = n + 1 := by omega
        subst this
        unfold Cold at h
        unfold NotHot
        by_cases hl : (s (n + 1)).logic = .and
        · rw [if_pos hl] at h ⊢
          exact fun x hx => (h x hx).le.trans lh
        · rw [if_neg hl] at h ⊢
          obtain ⟨x, hx, g⟩ := h
          exact ⟨x, hx, g.le.trans lh⟩
      · refine ⟨i, h1, by omega, h3, fun j hj1 hj2 => ?_⟩
        by_cases hj : j = n + 1
        · rw [hj]
          exact h
        · exact h4 j hj1 (by omega)
    · rintro ⟨i, h1, h2, h3, h4⟩
      by_cases hi : i = n + 1
      · left
        rw [hi] at h3
        exact h3
      · right
        exact ⟨⟨i, h1, by omega, h3, fun j hj1 hj2 => h4 j hj1 (by omega)⟩, h4 (n + 1) (by omega) (le_refl _)⟩

/-- **C62, malfunctions leave no trace.**  After an update without malfunctions of the setpoints the command is the
nominal one, whatever it was; the malfunction to off goes before that to on, this before the kill switch, and
otherwise the thermostat does as commanded. -/
theorem c62_actual (dt : K) (s t : Thermostat K) (hr : Ready s) (hu : s.update dt = some t) :
    (s.malfLow = false → s.malfHigh = false → t.command = t.nominal) ∧
    (s.malfOff = true → t.actual = false) ∧
    (s.malfOff = false → s.malfOn = true → t.actual = true) ∧
    (s.malfOff = false → s.malfOn = false → s.kill = true → t.actual = false) ∧
    (s.malfOff = false → s.malfOn = false → s.kill = false → t.actual = t.command) := by
  obtain ⟨l1, l2, l3, l4, l5, f1, f2, f3, f4, f5, -, -, f6, f7, f8, f9, f10⟩ := update_facts hr hu
  rw [f10, f3, f4, f5]
  refine ⟨fun h1 h2 => ?_, fun h => ?_, fun h1 h2 => ?_, fun h1 h2 h3 => ?_, fun h1 h2 h3 => ?_⟩
  · have e1 : lowOf t = lowOf s := by unfold lowOf; rw [l2, l3, l5]
    have e2 : highOf t = highOf s := by unfold highOf; rw [l2, l3, l5]
    rw [h1, if_neg (by decide)] at f6
    rw [h2, if_neg (by decide)] at f7
    have lh : lowOf t ≤ highOf t := by
      unfold lowOf highOf
      rw [l2, l3]
      linarith [hr.1]
    rw [Bool.eq_iff_iff, f9, f8, f6, f7, e1, e2, h1, h2, ← e1, ← e2]
    exact rule t (lowOf t) (highOf t) s.nominal lh
  · rw [h]; rfl
  · rw [h1, h2]; rfl
  · rw [h1, h2, h3]; rfl
  · rw [h1, h2, h3]; rfl

/-- **C62, malfunctions of the setpoints.**  With one of them, or both, the command obeys the same rule with the
setpoints so changed, and from the command it had; if they are then in the wrong order, there is no hysteresis: the
heater is on exactly up to the high one. -/
theorem c62_malf_setpoints (dt : K) (s t : Thermostat K) (hr : Ready s) (hu : s.update dt = some t)
    (hm : s.malfLow = true ∨ s.malfHigh = true) :
    let low := if s.malfLow then s.malfLowValue else lowOf s
    let high := if s.malfHigh then s.malfHighValue else highOf s
    (low ≤ high → (t.command = true ↔ Cold low t ∨ s.command = true ∧ NotHot high t)) ∧
    (high < low → (t.command = true ↔ NotHot high t)) := by
  obtain ⟨l1, l2, l3, l4, l5, f1, f2, f3, f4, f5, -, -, f6, f7, f8, f9, f10⟩ := update_facts hr hu
  have hor : (s.malfLow || s.malfHigh) = true := by
    rcases hm with h | h
    · rw [h]; rfl
    · rw [h]; exact Bool.or_true _
  rw [hor, if_pos rfl] at f9
  intro low high
  have e1 : t.low = low := f6
  have e2 : t.high = high := f7
  rw [e1, e2] at f9
  constructor
  · intro h
    rw [f9]
    exact rule t low high s.command h
  · intro h
    rw [f9]
    unfold NotHot
    by_cases hl : t.logic = .and
    · rw [if_pos hl, if_pos hl]
      exact ⟨fun g x hx => (g x hx).1, fun g x hx => ⟨g x hx, Or.inl ((g x hx).trans_lt h)⟩⟩
    · rw [if_neg hl, if_neg hl]
      exact ⟨fun ⟨x, hx, g, _⟩ => ⟨x, hx, g⟩, fun ⟨x, hx, g⟩ => ⟨x, hx, g, Or.inl (g.trans_lt h)⟩⟩

/-- What is the same in both closed loops: a run without malfunctions, whose sensors read the temperatures `T`
within `e`, which rise by at most `u` in a step while the heater is on and fall by at most `d` while it is off. -/
def Loop (N m : ℕ) (s : ℕ → Thermostat K) (T : ℕ → ℕ → K) (low high e u d : K) : Prop :=
  Run N s ∧ Ready (s 0) ∧
  (∀ n, 1 ≤ n → n ≤ N → (s n).malfLow = false ∧ (s n).malfHigh = false ∧ (s n).malfOn = false ∧
    (s n).malfOff = false ∧ (s n).kill = false) ∧
  (∀ n, 1 ≤ n → n ≤ N → lowOf (s n) = low ∧ highOf (s n) = high ∧ (s n).sensors.length = m ∧
    ∀ (i : ℕ) (x : Analog K), (s n).sensors[i]? = some x → |x.sensed - T n i| ≤ e) ∧
  ∀ n, 1 ≤ n → n ≤ N → ∀ i, i < m →
    if (s n).actual = true then T n i ≤ T (n + 1) i ∧ T (n + 1) i ≤ T n i + u
    else T n i - d ≤ T (n + 1) i ∧ T (n + 1) i ≤ T n i

/-- The command of a closed loop. -/
private theorem loop_command {N m : ℕ} {s : ℕ → Thermostat K} {T : ℕ → ℕ → K} {low high e u d : K}
    (hl : Loop N m s T low high e u d) (n : ℕ) (h1 : 1 ≤ n) (hn : n ≤ N) :
    (s n).logic = (s 0).logic ∧ (Cold low (s n) → (s n).actual = true) ∧ ((s n).actual = true → NotHot high (s n)) := by
  obtain ⟨hrun, h0, hmalf, hread, hheat⟩ := hl
  obtain ⟨k, rfl⟩ : ∃ k, n = k + 1 := ⟨n - 1, by omega⟩
  obtain ⟨t, dt, ho, hu⟩ := hrun k (by omega)
  obtain ⟨m1, m2, m3, m4, m5⟩ := hmalf (k + 1) (by omega) hn
  have hr : Ready t := by
    unfold Ready
    rw [ho.2.1, ho.2.2.1, ho.2.2.2.1]
    exact (run_facts hrun h0 k (by omega)).1
  have ha := c62_actual dt t _ hr hu
  obtain ⟨l1, l2, l3, l4, l5, f1, f2, f3, f4, f5, -, -, f6, f7, f8, f9, f10⟩ := update_facts hr hu
  rw [f1] at m1
  rw [f2] at m2
  rw [f3] at m3
  rw [f4] at m4
  rw [f5] at m5
  have e : (s (k + 1)).actual = (s (k + 1)).nominal := (ha.2.2.2.2 m4 m3 m5).trans (ha.1 m1 m2)
  obtain ⟨g1, g2, -, -⟩ := hread (k + 1) (by omega) hn
  rw [g1, g2] at f8
  have lh : low ≤ high := by
    rw [← g1, ← g2]
    unfold lowOf highOf
    linarith [(run_facts hrun h0 (k + 1) hn).1.1]
  refine ⟨(run_facts hrun h0 (k + 1) hn).2, fun h => ?_, fun h => ?_⟩
  · rw [e, f8]
    exact Or.inl h
  · rw [e, f8] at h
    rcases h with h | h
    · unfold Cold at h
      unfold NotHot
      by_cases hl : (s (k + 1)).logic = .and
      · rw [if_pos hl] at h ⊢
        exact fun x hx => (h x hx).le.trans lh
      · rw [if_neg hl] at h ⊢
        obtain ⟨x, hx, g⟩ := h
        exact ⟨x, hx, g.le.trans lh⟩
    · exact h.2

/-- **C62, the band.**  A thermostat with one sensor, or with OR logic, that heats what it measures: no temperature
falls more than the error of the sensors and the fall in one step below the low setpoint, and some temperature is
not more than their error and the rise in one step above the high setpoint, forever. -/
theorem c62_band (N m : ℕ) (s : ℕ → Thermostat K) (T : ℕ → ℕ → K) (low high e u d : K)
    (hl : Loop N m s T low high e u d) (hor : (s 0).logic ≠ .and)
    (hT : ∀ i, i < m → low - e - d ≤ T 1 i) (hT' : ∃ i, i < m ∧ T 1 i ≤ high + e + u) (n : ℕ) (h1 : 1 ≤ n)
    (hn : n ≤ N + 1) :
    (∀ i, i < m → low - e - d ≤ T n i) ∧ ∃ i, i < m ∧ T n i ≤ high + e + u := by
  obtain ⟨k, rfl⟩ : ∃ k, n = k + 1 := ⟨n - 1, by omega⟩
  clear h1
  induction k with
  | zero => exact ⟨hT, hT'⟩
  | succ k ih =>
    obtain ⟨ih1, ih2⟩ := ih (by omega)
    obtain ⟨c1, c2, c3⟩ := loop_command hl (k + 1) (by omega) (by omega)
    obtain ⟨-, -, -, hread, hheat⟩ := hl
    obtain ⟨-, -, hlen, hsens⟩ := hread (k + 1) (by omega) (by omega)
    have hheat := hheat (k + 1) (by omega) (by omega)
    have hand : (s (k + 1)).logic ≠ .and := by rw [c1]; exact hor
    unfold Cold at c2
    unfold NotHot at c3
    rw [if_neg hand] at c2 c3
    by_cases ha : (s (k + 1)).actual = true
    · simp only [if_pos ha] at hheat
      refine ⟨fun i hi => (ih1 i hi).trans (hheat i hi).1, ?_⟩
      obtain ⟨x, hx, g⟩ := c3 ha
      obtain ⟨i, hi, hxi⟩ := List.getElem_of_mem hx
      have hs := hsens i x (by rw [List.getElem?_eq_getElem hi, hxi])
      refine ⟨i, by omega, ?_⟩
      have := (hheat i (by omega)).2
      have := (abs_le.1 hs).1
      linarith
    · simp only [if_neg ha] at hheat
      refine ⟨fun i hi => ?_, ?_⟩
      · have hi' : i < (s (k + 1)).sensors.length := by omega
        have hs := hsens i _ (List.getElem?_eq_getElem hi')
        have : ¬ ((s (k + 1)).sensors[i]).sensed < low := fun c => ha (c2 ⟨_, List.getElem_mem hi', c⟩)
        have := not_lt.1 this
        have := (hheat i hi).1
        have := (abs_le.1 hs).2
        linarith
      · obtain ⟨i, hi, g⟩ := ih2
        exact ⟨i, hi, (hheat i hi).2.trans g⟩

/-- **C62, the band of AND logic.**  No temperature rises more than the error of the sensors and the rise in one step
above the high setpoint, and some temperature is not more than their error and the fall in one step below the low
setpoint. -/
theorem c62_band_and (N m : ℕ) (s : ℕ → Thermostat K) (T : ℕ → ℕ → K) (low high e u d : K)
    (hl : Loop N m s T low high e u d) (hand : (s 0).logic = .and)
    (hT : ∀ i, i < m → T 1 i ≤ high + e + u) (hT' : ∃ i, i < m ∧ low - e - d ≤ T 1 i) (n : ℕ) (h1 : 1 ≤ n)
    (hn : n ≤ N + 1) :
    (∀ i, i < m → T n i ≤ high + e + u) ∧ ∃ i, i < m ∧ low - e - d ≤ T n i := by
  obtain ⟨k, rfl⟩ : ∃ k, n = k + 1 := ⟨n - 1, by omega⟩
  clear h1
  induction k with
  | zero => exact ⟨hT, hT'⟩
  | succ k ih =>
    obtain ⟨ih1, ih2⟩ := ih (by omega)
    obtain ⟨c1, c2, c3⟩ := loop_command hl (k + 1) (by omega) (by omega)
    obtain ⟨-, -, -, hread, hheat⟩ := hl
    obtain ⟨-, -, hlen, hsens⟩ := hread (k + 1) (by omega) (by omega)
    have hheat := hheat (k + 1) (by omega) (by omega)
    have hand : (s (k + 1)).logic = .and := by rw [c1]; exact hand
    unfold Cold at c2
    unfold NotHot at c3
    rw [if_pos hand] at c2 c3
    by_cases ha : (s (k + 1)).actual = true
    · simp only [if_pos ha] at hheat
      refine ⟨fun i hi => ?_, ?_⟩
      · have hi' : i < (s (k + 1)).sensors.length := by omega
        have hs := hsens i _ (List.getElem?_eq_getElem hi')
        have := c3 ha _ (List.getElem_mem hi')
        have := (hheat i hi).2
        have := (abs_le.1 hs).1
        linarith
      · obtain ⟨i, hi, g⟩ := ih2
        exact ⟨i, hi, g.trans (hheat i hi).1⟩
    · simp only [if_neg ha] at hheat
      refine ⟨fun i hi => (hheat i hi).2.trans (ih1 i hi), ?_⟩
      have : ∃ x ∈ (s (k + 1)).sensors, low ≤ x.sensed := by
        by_contra c
        push Not at c
        exact ha (c2 c)
      obtain ⟨x, hx, g⟩ := this
      obtain ⟨i, hi, hxi⟩ := List.getElem_of_mem hx
      have hs := hsens i x (by rw [List.getElem?_eq_getElem hi, hxi])
      refine ⟨i, by omega, ?_⟩
      have := (hheat i (by omega)).1
      have := (abs_le.1 hs).2
      linarith

/-- **C62, off does not end on.**  The malfunction to off is documented to de-activate that to on; but if both are
active and off is removed, the thermostat is on. -/
theorem c62_off_keeps_on (dt dt' : K) (s t u : Thermostat K) (hr : Ready s) (hon : s.malfOn = true)
    (hoff : s.malfOff = true) (ht : s.update dt = some t)
    (hu : ({ t with malfOff := false } : Thermostat K).update dt' = some u) :
    t.actual = false ∧ u.actual = true := by
  have h1 := c62_actual dt s t hr ht
  obtain ⟨l1, l2, l3, l4, l5, f1, f2, f3, -⟩ := update_facts hr ht
  refine ⟨h1.2.1 hoff, ?_⟩
  have hr' : Ready ({ t with malfOff := false } : Thermostat K) := by
    unfold Ready
    simp only
    rw [l2, l3, l4]
    exact hr
  exact (c62_actual dt' _ u hr' hu).2.2.1 rfl (f3.trans hon)

/-- A sensor that shows 20 degrees. -/
def rtd : Analog ℚ where
  failTo := false
  failOff := false
  failStuck := false
  ignorePower := false
  perfect := false
  power := true
  degraded := false
  failToValue := 0
  malfScale := false
  malfScaleValue := 1
  malfBias := false
  malfBiasValue := 0
  malfDrift := false
  malfDriftRate := 0
  malfNoise := false
  malfNoiseScale := 0
  malfNoiseMult := 0
  malfResolution := false
  malfResolutionValue := 0
  drift := 0
  minRange := 0
  maxRange := 100
  offValue := 0
  bias := 0
  scale := 1
  noiseScale := 0
  noiseMult := 0
  resolution := 0
  hasNoise := false
  noise := fun _ => 0
  calls := 0
  convert := id
  truthInput := 20
  truthOutput := 20
  sensed := 20

/-- A thermostat of two such sensors, between 19 and 21 degrees. -/
def thermostat : ThermostatData ℚ where
  sensor := rtd
  low := 19
  high := 21
  count := 2
  logic := .or
  malfOn := false
  malfOff := false
  kill := false
  malfLow := false
  malfHigh := false
  malfLowValue := 0
  malfHighValue := 1000

/-- It stays off at 20 degrees, comes on when one sensor reads 18, stays on at 20, and goes off when both read 22. -/
example :
    let at_ (l : List ℚ) (s : Thermostat ℚ) : Option (Thermostat ℚ) := ({ s with sensors := l.map fun x =>
      { rtd with truthInput := x } } : Thermostat ℚ).update 1
    let s := (Thermostat.init thermostat).bind id
    let a := s.bind (at_ [20, 20])
    let b := a.bind (at_ [18, 20])
    let c := b.bind (at_ [20, 20])
    let d := c.bind (at_ [20, 22])
    let e := d.bind (at_ [22, 22])
    [s, a, b, c, d, e].map (Option.map Thermostat.actual) =
      [some false, some false, some true, some true, some true, some false] := by
  decide +kernel

/-- The thermostat after configuration, with one sensor. -/
def cooled : Thermostat ℚ :=
  ((Thermostat.init { thermostat with count := 1 }).bind id).get (by decide +kernel)

/-- A thermostat whose sensor measures `x`. -/
def measuring (s : Thermostat ℚ) (x : ℚ) : Thermostat ℚ :=
  { s with sensors := [{ rtd with truthInput := x }] }

private theorem measuring_outside (s : Thermostat ℚ) (x : ℚ) : Outside s (measuring s x) :=
  ⟨rfl, rfl, rfl, rfl, rfl, rfl, rfl⟩

/-- Two steps of a closed loop: 18 degrees, so that the heater goes on, then 20. -/
def warmed : ℕ → Thermostat ℚ
  | 0 => cooled
  | 1 => ((measuring cooled 18).update 1).getD cooled
  | _ => ((measuring (((measuring cooled 18).update 1).getD cooled) 20).update 1).getD cooled

/-- It is a closed loop, of a heater that warms by at most 2 degrees in a step. -/
example : Loop 2 1 warmed (fun n _ => if n = 1 then 18 else if n = 2 then 20 else 22) 19 21 0 2 1 ∧
    (warmed 0).logic ≠ .and := by
  have e1 : (measuring cooled 18).update 1 = some (warmed 1) := by
    have : ((measuring cooled 18).update 1).isSome = true := by decide +kernel
    obtain ⟨t, ht⟩ := Option.isSome_iff_exists.1 this
    show _ = some (((measuring cooled 18).update 1).getD cooled)
    rw [ht]
    rfl
  have e2 : (measuring (warmed 1) 20).update 1 = some (warmed 2) := by
    have : ((measuring (warmed 1) 20).update 1).isSome = true := by decide +kernel
    obtain ⟨t, ht⟩ := Option.isSome_iff_exists.1 this
    show _ = some (((measuring (warmed 1) 20).update 1).getD cooled)
    rw [ht]
    rfl
  have l1 : (warmed 1).sensors.map (fun x => x.sensed) = [18] := by decide +kernel
  have l2 : (warmed 2).sensors.map (fun x => x.sensed) = [20] := by decide +kernel
  refine ⟨⟨fun n hn => ?_, by unfold Ready; decide +kernel, fun n h1 h2 => ?_, fun n h1 h2 => ?_, fun n h1 h2 => ?_⟩,
    by decide +kernel⟩
  · match n, hn with
    | 0, _ => exact ⟨measuring cooled 18, 1, measuring_outside _ _, e1⟩
    | 1, _ => exact ⟨measuring (warmed 1) 20, 1, measuring_outside _ _, e2⟩
  · match n, h1, h2 with
    | 1, _, _ => decide +kernel
    | 2, _, _ => decide +kernel
  · match n, h1, h2 with
    | 1, _, _ =>
      refine ⟨by decide +kernel, by decide +kernel, by decide +kernel, fun i x hx => ?_⟩
      have hx' : ((warmed 1).sensors.map (fun x => x.sensed))[i]? = some x.sensed := by
        rw [List.getElem?_map, hx]; rfl
      rw [l1] at hx'
      match i with
      | 0 =>
        have : (18 : ℚ) = x.sensed := Option.some.inj hx'
        rw [← this]
        norm_num
      | i + 1 => cases hx'
    | 2, _, _ =>
      refine ⟨by decide +kernel, by decide +kernel, by decide +kernel, fun i x hx => ?_⟩
      have hx' : ((warmed 2).sensors.map (fun x => x.sensed))[i]? = some x.sensed := by
        rw [List.getElem?_map, hx]; rfl
      rw [l2] at hx'
      match i with
      | 0 =>
        have : (20 : ℚ) = x.sensed := Option.some.inj hx'
        rw [← this]
        norm_num
      | i + 1 => cases hx'
  · match n, h1, h2 with
    | 1, _, _ =>
      intro i _
      have : (warmed 1).actual = true := by decide +kernel
      rw [if_pos this]
      norm_num
    | 2, _, _ =>
      intro i _
      have : (warmed 2).actual = true := by decide +kernel
      rw [if_pos this]
      norm_num

end Gunns.Props
