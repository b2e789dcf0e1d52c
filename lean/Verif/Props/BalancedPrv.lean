import Verif.Fluid.BalancedPrv
import Mathlib.Tactic.Linarith
import Mathlib.Tactic.FieldSimp
import Mathlib.Tactic.Ring
import Mathlib.Tactic.Positivity
import Mathlib.Algebra.BigOperators.Intervals

/-!
# C99: the balanced pressure reducing valve
-/

set_option linter.unusedSectionVars false

namespace Gunns.Props

open Gunns Gunns.Prv

variable {K : Type*} [Field K] [LinearOrder K] [IsStrictOrderedRing K]

private theorem flt_lt_one : (fltEps : K) < 1 := by
  unfold fltEps
  norm_num

private theorem clamp_pos (d : K) : 0 < Interp.limitRange fltEps d (1 / fltEps) :=
  lt_of_lt_of_le fltEps_pos (le_max_right _ _)

/-- The regulated pressure is the setpoint above the reference, with its bias, but never more than the inlet has. -/
theorem c99_regulated (dt p0 p1 p2 w : K) (s : Valve K) :
    (step dt p0 p1 p2 w s).reg ≤ p0 ∧ (s.setpoint + p2 + s.bias.getD 0 ≤ p0 → (step dt p0 p1 p2 w s).reg = s.setpoint + p2 + s.bias.getD 0)
      ∧ (p0 ≤ s.setpoint + p2 + s.bias.getD 0 → (step dt p0 p1 p2 w s).reg = p0) :=
  ⟨min_le_right _ _, fun h => min_eq_left h, fun h => min_eq_right h⟩

/-- An open valve lets the pressure at its exit droop below the regulated one in proportion to the mass flow. -/
theorem c99_droop (s : Valve K) (x : Pass K) (hc : (pass s x).cutoff = false) (hw : fltEps ≤ x.w) (hb : s.block = none)
    (hd : fltEps ≤ s.droop) (hd' : s.droop ≤ 1 / fltEps) (hq : x.q1 ≤ (pass s x).reg) :
    (pass s x).rate * s.droop = (pass s x).reg - x.q1 := by
  have hf := fltEps_pos (K := K)
  have hwp : 0 < x.w := lt_of_lt_of_le hf hw
  have hdp : 0 < s.droop := lt_of_lt_of_le hf hd
  have hcut : latch x.p0 x.p1 s = false := hc
  have hge : exitG (latch x.p0 x.p1 s) x.w s = 1 / x.w / s.droop := by
    unfold exitG
    rw [hcut, if_neg (by simp [not_lt.mpr hw])]
    simp only [hb]
    congr 1
    unfold Interp.limitRange
    rw [min_eq_left hd', max_eq_left hd]
  have hr : (pass s x).rate = x.w * max 0 (-x.q1 * exitG (latch x.p0 x.p1 s) x.w s + (pass s x).reg * exitG (latch x.p0 x.p1 s) x.w s) := rfl
  rw [hr, hge]
  have e : -x.q1 * (1 / x.w / s.droop) + (pass s x).reg * (1 / x.w / s.droop) = ((pass s x).reg - x.q1) * (1 / x.w / s.droop) := by ring
  rw [e, max_eq_right (mul_nonneg (by linarith) (by positivity))]
  field_simp

/-- Nothing flows backward, and nothing flows out of a valve that is cut off or above its regulated pressure. -/
theorem c99_forward (s : Valve K) (x : Pass K) (hw : 0 ≤ x.w) (hb : ∀ b, s.block = some b → b ≤ 1) :
    0 ≤ (pass s x).rate ∧ 0 ≤ (pass s x).inletRate ∧ ((pass s x).cutoff = true → (pass s x).rate = 0)
      ∧ ((pass s x).reg ≤ x.q1 → (pass s x).rate = 0) := by
  have hge : 0 ≤ exitG (latch x.p0 x.p1 s) x.w s := by
    unfold exitG
    split
    · exact le_refl _
    · have hcl := clamp_pos s.droop
      have hg : 0 ≤ 1 / x.w / Interp.limitRange fltEps s.droop (1 / fltEps) := by positivity
      cases h : s.block with
      | none => exact hg
      | some b => exact mul_nonneg hg (by linarith [hb b h])
  have hr : (pass s x).rate = x.w * max 0 (-x.q1 * exitG (latch x.p0 x.p1 s) x.w s + (pass s x).reg * exitG (latch x.p0 x.p1 s) x.w s) := rfl
  refine ⟨mul_nonneg hw (le_max_left _ _), mul_nonneg hw (le_max_left _ _), fun h => ?_, fun h => ?_⟩
  · have hcut : latch x.p0 x.p1 s = true := h
    have : exitG (latch x.p0 x.p1 s) x.w s = 0 := by unfold exitG; rw [hcut, if_pos (Or.inl rfl)]
    rw [hr, this]; simp
  · rw [hr, max_eq_left, mul_zero]
    have : -x.q1 * exitG (latch x.p0 x.p1 s) x.w s + (pass s x).reg * exitG (latch x.p0 x.p1 s) x.w s
        = -((x.q1 - (pass s x).reg) * exitG (latch x.p0 x.p1 s) x.w s) := by ring
    rw [this]
    linarith [mul_nonneg (sub_nonneg.mpr h) hge]

/-- The back-pressure latch: it goes up when the exit has more than the inlet, and stays up at all passes until the exit has less than the
setpoint and no more than the inlet. -/
theorem c99_latch (x : ℕ → Pass K) (s : Valve K) (n : ℕ) :
    ((x n).p0 < (x n).p1 → (run x s (n + 1)).cutoff = true)
      ∧ ((x n).p1 ≤ (x n).p0 → (x n).p1 < (run x s n).setpoint → (run x s (n + 1)).cutoff = false)
      ∧ (∀ k, (run x s n).cutoff = true → (∀ i, n ≤ i → i < n + k → s.setpoint ≤ (x i).p1) → (run x s (n + k)).cutoff = true) := by
  have hset : ∀ n, (run x s n).setpoint = s.setpoint := by
    intro n
    induction n with
    | zero => rfl
    | succ n ih => exact ih
  have hc : ∀ n, (run x s (n + 1)).cutoff = latch (x n).p0 (x n).p1 (run x s n) := fun n => rfl
  refine ⟨fun h => ?_, fun h1 h2 => ?_, fun k h hs => ?_⟩
  · rw [hc]; unfold latch; rw [if_pos h]
  · rw [hc]; unfold latch; rw [if_neg (not_lt.mpr h1), if_pos h2]
  · induction k with
    | zero => exact h
    | succ k ih =>
      have := ih fun i h1 h2 => hs i h1 (by omega)
      rw [← Nat.add_assoc, hc]
      unfold latch
      split
      · rfl
      · rw [hset, if_neg (not_lt.mpr (hs (n + k) (by omega) (by omega)))]
        exact this

/-- The inlet conductance is not negative, not above that which takes a fifth of the buffer, and within the limit. -/
private theorem inlet_le (s : Valve K) (x : Pass K) (hb : 0 ≤ s.buffer) (hq : 0 ≤ x.q0) (hq' : x.q0 ≤ 5 * x.p0) (hdt : 0 ≤ x.dt) (hw : 0 ≤ x.w) :
    0 ≤ (pass s x).inletRate * x.dt ∧ (pass s x).inletRate * x.dt ≤ s.buffer := by
  have he := dblEps_pos (K := K)
  have hf := fltEps_pos (K := K)
  have hr : (pass s x).inletRate = x.w * max 0 (x.q0 * inletG x.dt x.p0 x.w s) := rfl
  have hlim : (0 : K) ≤ condLimit := by unfold condLimit; positivity
  have hg0 : 0 ≤ inletG x.dt x.p0 x.w s := le_max_right _ _
  refine ⟨by rw [hr]; exact mul_nonneg (mul_nonneg hw (le_max_left _ _)) hdt, ?_⟩
  rw [hr, max_eq_right (mul_nonneg hq hg0)]
  by_cases h : x.dt < dblEps ∨ x.w < fltEps ∨ x.p0 < dblEps
  · have : inletG x.dt x.p0 x.w s = 0 := by
      unfold inletG Interp.limitRange
      rw [if_pos h, min_eq_left hlim, max_self]
    rw [this]; simpa using hb
  · have h1 : dblEps ≤ x.dt := by by_contra hh; exact h (Or.inl (not_le.mp hh))
    have h2 : fltEps ≤ x.w := by by_contra hh; exact h (Or.inr (Or.inl (not_le.mp hh)))
    have h3 : dblEps ≤ x.p0 := by by_contra hh; exact h (Or.inr (Or.inr (not_le.mp hh)))
    have d : 0 < x.dt := lt_of_lt_of_le he h1
    have w : 0 < x.w := lt_of_lt_of_le hf h2
    have p : 0 < x.p0 := lt_of_lt_of_le he h3
    have hG : inletG x.dt x.p0 x.w s ≤ 1 / 5 * s.buffer / x.dt / x.w / x.p0 := by
      unfold inletG Interp.limitRange
      rw [if_neg h]
      exact max_le (min_le_left _ _) (by positivity)
    calc x.w * (x.q0 * inletG x.dt x.p0 x.w s) * x.dt
        ≤ x.w * (5 * x.p0 * (1 / 5 * s.buffer / x.dt / x.w / x.p0)) * x.dt := by
          apply mul_le_mul_of_nonneg_right _ hdt
          apply mul_le_mul_of_nonneg_left _ hw
          exact mul_le_mul hq' hG hg0 (by positivity)
      _ = s.buffer := by field_simp

/-- The buffer is what the exit has given before the inlet has paid for it: over any passes it is the difference of what has left and what has
entered, but for less than `DBL_EPSILON` a pass, while no inlet pressure is found five times what it was. -/
theorem c99_ledger (x : ℕ → Pass K) (s : Valve K) (h0 : 0 ≤ s.buffer) (hb : ∀ b, s.block = some b → b ≤ 1)
    (hx : ∀ n, 0 ≤ (x n).q0 ∧ (x n).q0 ≤ 5 * (x n).p0 ∧ 0 ≤ (x n).dt ∧ 0 ≤ (x n).w) (n : ℕ) :
    let d := s.buffer + ∑ i ∈ Finset.range n, ((run x s (i + 1)).rate - (run x s (i + 1)).inletRate) * (x i).dt
    0 ≤ (run x s n).buffer ∧ (run x s n).buffer ≤ d ∧ d ≤ (run x s n).buffer + n * dblEps := by
  have he := dblEps_pos (K := K)
  have hblock : ∀ n, (run x s n).block = s.block := by
    intro n
    induction n with
    | zero => rfl
    | succ n ih => exact ih
  induction n with
  | zero => simp [run, h0]
  | succ n ih =>
    intro d
    obtain ⟨i1, i2, i3⟩ := ih
    obtain ⟨a, b, c, e⟩ := hx n
    obtain ⟨l1, l2⟩ := inlet_le (run x s n) (x n) i1 a b c e
    have hf := (c99_forward (run x s n) (x n) e fun b h => hb b (by rw [← hblock n]; exact h)).1
    have hrd : 0 ≤ (run x s (n + 1)).rate * (x n).dt := mul_nonneg hf c
    have l2' : (run x s (n + 1)).inletRate * (x n).dt ≤ (run x s n).buffer := l2
    set v : K := (run x s n).buffer + ((run x s (n + 1)).rate - (run x s (n + 1)).inletRate) * (x n).dt with hv
    have hv0 : 0 ≤ v := by
      rw [hv, sub_mul]; linarith
    have hbuf : (run x s (n + 1)).buffer = if v < dblEps then 0 else v := rfl
    have hd : d = s.buffer + ∑ i ∈ Finset.range n, ((run x s (i + 1)).rate - (run x s (i + 1)).inletRate) * (x i).dt
        + ((run x s (n + 1)).rate - (run x s (n + 1)).inletRate) * (x n).dt := by
      show s.buffer + ∑ i ∈ Finset.range (n + 1), _ = _
      rw [Finset.sum_range_succ, add_assoc]
    rw [hd, hbuf]
    push_cast
    by_cases h : v < dblEps
    · rw [if_pos h]
      refine ⟨le_refl _, by linarith, by linarith⟩
    · rw [if_neg h]
      refine ⟨hv0, by linarith, by linarith⟩

/-- At a pressure that is found as it was the inlet pays a fifth of the buffer in each pass. -/
theorem c99_fifth (s : Valve K) (x : Pass K) (hb : 0 ≤ s.buffer) (hq : x.q0 = x.p0) (h1 : dblEps ≤ x.dt) (h2 : fltEps ≤ x.w) (h3 : dblEps ≤ x.p0)
    (hl : 1 / 5 * s.buffer / x.dt / x.w / x.p0 ≤ condLimit) : (pass s x).inletRate * x.dt = s.buffer / 5 := by
  have d : 0 < x.dt := lt_of_lt_of_le dblEps_pos h1
  have w : 0 < x.w := lt_of_lt_of_le fltEps_pos h2
  have p : 0 < x.p0 := lt_of_lt_of_le dblEps_pos h3
  have hr : (pass s x).inletRate = x.w * max 0 (x.q0 * inletG x.dt x.p0 x.w s) := rfl
  have hg : inletG x.dt x.p0 x.w s = 1 / 5 * s.buffer / x.dt / x.w / x.p0 := by
    unfold inletG Interp.limitRange
    rw [if_neg (by rintro (h | h | h) <;> linarith), min_eq_left hl, max_eq_left (by positivity)]
  rw [hr, hg, hq, max_eq_right (by positivity)]
  field_simp

/-- So with a steady exit the buffer tends to five passes of the exit flow, by four fifths at each pass, and the inlet flow to that of the exit. -/
theorem c99_steady (x : ℕ → Pass K) (s : Valve K) (e : K) (hs : ∀ n, dblEps ≤ (run x s n).buffer) (hq : ∀ n, (x n).q0 = (x n).p0)
    (h1 : ∀ n, dblEps ≤ (x n).dt) (h2 : ∀ n, fltEps ≤ (x n).w) (h3 : ∀ n, dblEps ≤ (x n).p0)
    (hl : ∀ n, 1 / 5 * (run x s n).buffer / (x n).dt / (x n).w / (x n).p0 ≤ condLimit) (hr : ∀ n, (run x s (n + 1)).rate * (x n).dt = e) (n : ℕ) :
    (run x s n).buffer - 5 * e = (4 / 5) ^ n * (s.buffer - 5 * e)
      ∧ (run x s (n + 1)).inletRate * (x n).dt - e = (4 / 5) ^ n * (s.buffer / 5 - e) := by
  have he := dblEps_pos (K := K)
  have hin : ∀ n, (run x s (n + 1)).inletRate * (x n).dt = (run x s n).buffer / 5 := fun n =>
    c99_fifth (run x s n) (x n) (he.le.trans (hs n)) (hq n) (h1 n) (h2 n) (h3 n) (hl n)
  have key : (run x s n).buffer - 5 * e = (4 / 5) ^ n * (s.buffer - 5 * e) := by
    induction n with
    | zero => simp [run]
    | succ n ih =>
      have hb : (run x s (n + 1)).buffer = (run x s n).buffer + ((run x s (n + 1)).rate - (run x s (n + 1)).inletRate) * (x n).dt := by
        have hbuf : (run x s (n + 1)).buffer = if (run x s n).buffer + ((run x s (n + 1)).rate - (run x s (n + 1)).inletRate) * (x n).dt < dblEps
          then 0 else (run x s n).buffer + ((run x s (n + 1)).rate - (run x s (n + 1)).inletRate) * (x n).dt := rfl
        by_cases h : (run x s n).buffer + ((run x s (n + 1)).rate - (run x s (n + 1)).inletRate) * (x n).dt < dblEps
        · rw [if_pos h] at hbuf
          have := hs (n + 1)
          linarith
        · rw [if_neg h] at hbuf; exact hbuf
      rw [hb, sub_mul, hr n, hin n, pow_succ]
      have : (run x s n).buffer + (e - (run x s n).buffer / 5) - 5 * e = 4 / 5 * ((run x s n).buffer - 5 * e) := by ring
      rw [this, ih]
      ring
  refine ⟨key, ?_⟩
  rw [hin n]
  have : (run x s n).buffer / 5 - e = ((run x s n).buffer - 5 * e) / 5 := by ring
  rw [this, key]
  ring

/-- The nodes lose and gain what the link says has flowed, but for flows of no size. -/
theorem c99_nodes (s : Valve K) :
    (100 * dblEps < s.inletRate → taken s = s.inletRate) ∧ (100 * dblEps < s.rate → given s = s.rate)
      ∧ (0 ≤ s.inletRate → 0 ≤ s.inletRate - taken s ∧ s.inletRate - taken s ≤ 100 * dblEps)
      ∧ (0 ≤ s.rate → 0 ≤ s.rate - given s ∧ s.rate - given s ≤ 100 * dblEps) := by
  have he := dblEps_pos (K := K)
  refine ⟨fun h => if_pos h, fun h => if_pos h, fun h0 => ?_, fun h0 => ?_⟩
  · unfold taken
    by_cases h : 100 * dblEps < s.inletRate
    · rw [if_pos h]; constructor <;> linarith
    · rw [if_neg h]; constructor <;> linarith [not_lt.mp h]
  · unfold given
    by_cases h : 100 * dblEps < s.rate
    · rw [if_pos h]; constructor <;> linarith
    · rw [if_neg h]; constructor <;> linarith [not_lt.mp h]

/-- The network is told when and only when a conductance in the matrix has changed. -/
theorem c99_told (dt p0 p1 p2 w : K) (s : Valve K) :
    (step dt p0 p1 p2 w s).update = true ↔ ((step dt p0 p1 p2 w s).a0 ≠ s.a0 ∨ (step dt p0 p1 p2 w s).a4 ≠ s.a4) := by
  have : (step dt p0 p1 p2 w s).update = decide (s.a0 ≠ inletG dt p0 w s ∨ s.a4 ≠ exitG (latch p0 p1 s) w s) := rfl
  rw [this, decide_eq_true_iff]
  show _ ↔ (inletG dt p0 w s ≠ s.a0 ∨ exitG (latch p0 p1 s) w s ≠ s.a4)
  rw [ne_comm, ne_comm (a := s.a4)]

/-! ## Cases -/

private def valve : Valve ℚ where
  setpoint := 20
  droop := 10
  bias := none
  block := none
  cutoff := false
  reg := 0
  gi := 0
  ge := 0
  buffer := 0
  a0 := 0
  a4 := 0
  src1 := 0
  update := false
  inletFlux := 0
  flux := 0
  inletRate := 0
  rate := 0

example : (pass valve ⟨1 / 10, 300, 100, 100, 28, 300, 115⟩).rate = 1 / 2 ∧ (pass valve ⟨1 / 10, 300, 100, 100, 28, 300, 115⟩).buffer = 1 / 20
    ∧ (pass valve ⟨1 / 10, 300, 100, 100, 28, 300, 115⟩).cutoff = false ∧ (pass valve ⟨1 / 10, 300, 100, 100, 28, 300, 115⟩).reg = 120 := by
  decide +kernel

private def steady : ℕ → Pass ℚ := fun _ => ⟨1 / 10, 300, 100, 100, 28, 300, 115⟩

/-- The hypotheses of the steady run for the first passes, from a buffer of one pass. -/
example : (∀ n ∈ List.range 4, dblEps ≤ (run steady { valve with buffer := 1 / 20 } n).buffer
    ∧ (run steady { valve with buffer := 1 / 20 } (n + 1)).rate * (1 / 10) = 1 / 20)
    ∧ (run steady { valve with buffer := 1 / 20 } 3).buffer - 5 * (1 / 20) = (4 / 5) ^ 3 * (1 / 20 - 5 * (1 / 20)) := by
  decide +kernel

/-- The latch compares the exit with the setpoint alone: a valve with a setpoint of 20 above a reference of 100, once cut off, stays so at an exit of 50,
though it regulates to 120 and its inlet has 300. -/
theorem c99_latch_reference :
    let s := pass { valve with cutoff := true } ⟨1 / 10, 300, 50, 100, 28, 300, 50⟩
    s.cutoff = true ∧ s.reg = 120 ∧ s.rate = 0 := by
  decide +kernel

/-- The same for any reference: no pressure from the setpoint on releases it. -/
theorem c99_latch_stays (x : ℕ → Pass K) (s : Valve K) (hc : s.cutoff = true) (hx : ∀ n, s.setpoint ≤ (x n).p1) (n : ℕ) :
    (run x s n).cutoff = true := by
  have := (c99_latch x s 0).2.2 n hc fun i _ _ => hx i
  rwa [Nat.zero_add] at this

end Gunns.Props
